import Verif.Model.LSTM
import Verif.Props.Sequential

/-!
# Lemmas about the LSTM model: a step on a batch is a step on each sample
-/

namespace Verif
namespace LSTM

/-- Pre-activation of one gate for one sample. -/
def gateRow (l : LSTM) (g : LSTMGate) (x h : List ℤ) : List ℤ :=
  List.zipWith (fun a b => l.sumVal g (wrapS 64 (a + b))) (vecMat h g.recurrent l.nCells)
    (List.zipWith (fun a b => l.firstVal g (wrapS 64 (a + b))) (vecMat x g.kernel l.nCells) g.bias)

/-- New cell values of one sample. -/
def cellRow (l : LSTM) (f c i g : List ℤ) : List ℤ :=
  List.zipWith (fun (x y : ℤ × ℤ) => l.cellVal x.1 x.2 y.1 y.2) (List.zip f c) (List.zip i g)

/-- One time step for one sample. -/
def rowStep (l : LSTM) (x h c : List ℤ) : Option (List ℤ × List ℤ) := do
  let aI ← (l.gateRow l.gi x h).mapM l.inputLut.look
  let aF ← (l.gateRow l.gf x h).mapM l.forgetLut.look
  let aC ← (l.gateRow l.gc x h).mapM l.cellLut.look
  let aO ← (l.gateRow l.go x h).mapM l.outputLut.look
  let c' := l.cellRow aF c aI aC
  let aS ← c'.mapM l.stateLut.look
  some (List.zipWith l.hiddenVal aO aS, c')

/-- All gates have one bias per cell, and there is a cell. -/
structure Shaped (l : LSTM) : Prop where
  cells : 0 < l.nCells
  bi : l.gi.bias.length = l.nCells
  bf : l.gf.bias.length = l.nCells
  bc : l.gc.bias.length = l.nCells
  bo : l.go.bias.length = l.nCells

theorem gateRow_length (l : LSTM) (g : LSTMGate) (hb : g.bias.length = l.nCells) (x h : List ℤ) :
    (l.gateRow g x h).length = l.nCells := by
  simp [gateRow, vecMat, hb]

theorem lutMat_eq (t : LutLayer) (A : List (List ℤ)) (h : A.flatten ≠ []) :
    lutMat t A = A.mapM (fun (r : List ℤ) => r.mapM t.look) := by
  unfold lutMat
  rw [LutLayer.infer_mat, if_neg h]
  cases A.mapM (fun (r : List ℤ) => r.mapM t.look) <;> rfl

theorem flatten_map_ne {α : Type} (Z : List α) (hZ : Z ≠ []) (f : α → List ℤ) (hf : ∀ z ∈ Z, f z ≠ []) :
    (Z.map f).flatten ≠ [] := by
  obtain ⟨z, zs, rfl⟩ := List.exists_cons_of_ne_nil hZ
  intro hc
  rw [List.map_cons, List.flatten_cons, List.append_eq_nil_iff] at hc
  exact hf z (by simp) hc.1

theorem lutMat_map {α : Type} (t : LutLayer) (Z : List α) (hZ : Z ≠ []) (f : α → List ℤ)
    (hf : ∀ z ∈ Z, f z ≠ []) : lutMat t (Z.map f) = Z.mapM (fun z => (f z).mapM t.look) := by
  rw [lutMat_eq t _ (flatten_map_ne Z hZ f hf), List.mapM_map]
  rfl

/-- A batch of samples with their states. -/
abbrev Z3 := List ℤ × List ℤ × List ℤ

theorem bias_rows (l : LSTM) (g : LSTMGate) (Z : List Z3) (H : List (List ℤ))
    (hH : bcastRows H Z.length = some (Z.map (fun z => z.2.1))) :
    l.recurrentAdd g H (l.biasAdd g (Z.map (fun z => z.1))) = some (Z.map (fun z => l.gateRow g z.1 z.2.1)) := by
  unfold recurrentAdd biasAdd ew2
  unfold bcastRows at hH
  have hl : (mmul H g.recurrent l.nCells).length = H.length := by simp [mmul]
  by_cases h : H.length = Z.length
  · rw [if_pos h, Option.some.injEq] at hH
    rw [if_pos (by simp [mmul, h])]
    subst hH
    congr 1
    simp [mmul, gateRow]
  · rw [if_neg h] at hH
    rw [if_neg (by simp [mmul, h])]
    match H, hH with
    | [a], hH =>
      simp only [Option.some.injEq] at hH
      simp only [mmul, List.map_cons, List.map_nil, List.map_map, Option.some.injEq]
      apply List.map_congr_left
      intro z hz
      have : z.2.1 = a := by
        have : z.2.1 ∈ List.replicate Z.length a := by rw [hH]; exact List.mem_map_of_mem hz
        exact List.eq_of_mem_replicate this
      simp [gateRow, this]

theorem mapM_congr' {α β : Type} (f g : α → Option β) (Z : List α) (h : ∀ z ∈ Z, f z = g z) :
    Z.mapM f = Z.mapM g := by
  induction Z with
  | nil => rfl
  | cons z Z ih =>
    rw [List.mapM_cons, List.mapM_cons, h z (by simp), ih (fun y hy => h y (by simp [hy]))]

theorem zipWith_map_self {α β γ : Type} (f : α → β → γ) (k : α → β) (Z : List α) :
    List.zipWith f Z (Z.map k) = Z.map (fun z => f z (k z)) := by
  induction Z with
  | nil => rfl
  | cons z Z ih => simp [ih]

theorem mapM_cases {α β : Type} [Inhabited β] (f : α → Option β) (Z : List α) :
    (∃ g : α → β, (∀ z ∈ Z, f z = some (g z)) ∧ Z.mapM f = some (Z.map g)) ∨
      (∃ z ∈ Z, f z = none) ∧ Z.mapM f = none := by
  by_cases h : ∃ z ∈ Z, f z = none
  · exact Or.inr ⟨h, (mapM_none_iff _ _).mpr h⟩
  · left
    push Not at h
    have hs : ∀ z ∈ Z, f z = some ((f z).getD default) := by
      intro z hz
      obtain ⟨b, hb⟩ := Option.ne_none_iff_exists'.mp (h z hz)
      rw [hb]; rfl
    exact ⟨fun z => (f z).getD default, hs, mapM_eq_map _ _ _ hs⟩

/-- One step on a batch is one step on each sample. -/
theorem step_rows (l : LSTM) (hl : l.Shaped) (Z : List Z3) (hZ : Z ≠ []) (hc : ∀ z ∈ Z, z.2.2.length = l.nCells)
    (H C : List (List ℤ)) (hH : bcastRows H Z.length = some (Z.map (fun z => z.2.1)))
    (hC : bcastRows C Z.length = some (Z.map (fun z => z.2.2))) :
    l.step (Z.map (fun z => z.1)) H C =
      (Z.mapM (fun z => l.rowStep z.1 z.2.1 z.2.2)).map (fun r => (r.map Prod.fst, r.map Prod.snd)) := by
  have gne : ∀ (g : LSTMGate), g.bias.length = l.nCells → ∀ z ∈ Z, l.gateRow g z.1 z.2.1 ≠ [] := by
    intro g hg z _ h0
    have := gateRow_length l g hg z.1 z.2.1
    rw [h0] at this
    have := hl.cells
    simp at *; omega
  unfold step
  rw [bias_rows l l.gi Z H hH, bias_rows l l.gf Z H hH, bias_rows l l.gc Z H hH, bias_rows l l.go Z H hH]
  simp only [Option.bind_eq_bind, Option.bind_some]
  rw [lutMat_map _ Z hZ _ (gne _ hl.bi), lutMat_map _ Z hZ _ (gne _ hl.bf), lutMat_map _ Z hZ _ (gne _ hl.bc),
    lutMat_map _ Z hZ _ (gne _ hl.bo)]
  have fail : ∀ {α : Type} (f : Z3 → Option α) (k : Z3 → α → Option (List ℤ × List ℤ))
      (hr : ∀ z, l.rowStep z.1 z.2.1 z.2.2 = (f z).bind (k z)), (∃ z ∈ Z, f z = none) →
      Z.mapM (fun z => l.rowStep z.1 z.2.1 z.2.2) = none := by
    intro α f k hr ⟨z, hz, hf⟩
    rw [mapM_none_iff]
    exact ⟨z, hz, by rw [hr, hf]; rfl⟩
  have fail' : (∃ z ∈ Z, l.rowStep z.1 z.2.1 z.2.2 = none) →
      Z.mapM (fun z => l.rowStep z.1 z.2.1 z.2.2) = none := (mapM_none_iff _ _).mpr
  rcases mapM_cases (fun z : Z3 => (l.gateRow l.gi z.1 z.2.1).mapM l.inputLut.look) Z with ⟨gI, eI, hI⟩ | ⟨⟨z, hz, e⟩, hI⟩
  swap
  · rw [hI, fail' ⟨z, hz, by simp [rowStep, e]⟩]; rfl
  rcases mapM_cases (fun z : Z3 => (l.gateRow l.gf z.1 z.2.1).mapM l.forgetLut.look) Z with ⟨gF, eF, hF⟩ | ⟨⟨z, hz, e⟩, hF⟩
  swap
  · rw [hI, hF, fail' ⟨z, hz, by simp [rowStep, e]⟩]; rfl
  rcases mapM_cases (fun z : Z3 => (l.gateRow l.gc z.1 z.2.1).mapM l.cellLut.look) Z with ⟨gC, eC, hC'⟩ | ⟨⟨z, hz, e⟩, hC'⟩
  swap
  · rw [hI, hF, hC', fail' ⟨z, hz, by simp [rowStep, e]⟩]; rfl
  rcases mapM_cases (fun z : Z3 => (l.gateRow l.go z.1 z.2.1).mapM l.outputLut.look) Z with ⟨gO, eO, hO⟩ | ⟨⟨z, hz, e⟩, hO⟩
  swap
  · rw [hI, hF, hC', hO, fail' ⟨z, hz, by simp [rowStep, e]⟩]; rfl
  simp only [hI, hF, hC', hO, Option.bind_some, List.length_map, hC]
  have hcell : List.zipWith (fun fc ig => List.zipWith (fun (x y : ℤ × ℤ) => l.cellVal x.1 x.2 y.1 y.2) fc ig)
      (List.zipWith List.zip (Z.map gF) (Z.map (fun z => z.2.2)))
      (List.zipWith List.zip (Z.map gI) (Z.map gC)) = Z.map (fun z => l.cellRow (gF z) z.2.2 (gI z) (gC z)) := by
    simp [cellRow]
  rw [hcell]
  have len : ∀ {t : LutLayer} {g : LSTMGate}, g.bias.length = l.nCells → ∀ {z : Z3} {m : List ℤ},
      (l.gateRow g z.1 z.2.1).mapM t.look = some m → m.length = l.nCells := by
    intro t g hg z m hm
    rw [← ((mapM_some_iff _ _ _).mp hm).1, gateRow_length l g hg]
  have cne : ∀ z ∈ Z, l.cellRow (gF z) z.2.2 (gI z) (gC z) ≠ [] := by
    intro z hz h0
    have h1 := congrArg List.length h0
    have h2 := hl.cells
    simp [cellRow, len hl.bi (eI z hz), len hl.bf (eF z hz), len hl.bc (eC z hz), hc z hz] at h1
    omega
  rw [lutMat_map _ Z hZ _ cne]
  rcases mapM_cases (fun z : Z3 => (l.cellRow (gF z) z.2.2 (gI z) (gC z)).mapM l.stateLut.look) Z with
    ⟨gS, eS, hS⟩ | ⟨⟨z, hz, e⟩, hS⟩
  swap
  · rw [hS, fail' ⟨z, hz, ?_⟩]
    · rfl
    · have h1 := eI z hz; have h2 := eF z hz; have h3 := eC z hz; have h4 := eO z hz
      simp [rowStep, h1, h2, h3, h4, e]
  rw [hS]
  simp only [Option.bind_some]
  rw [mapM_eq_map _ (fun z => (List.zipWith l.hiddenVal (gO z) (gS z), l.cellRow (gF z) z.2.2 (gI z) (gC z)))]
  · simp
  · intro z hz
    have h1 := eI z hz; have h2 := eF z hz; have h3 := eC z hz; have h4 := eO z hz; have h5 := eS z hz
    simp [rowStep, h1, h2, h3, h4, h5]

theorem rowStep_length (l : LSTM) (hl : l.Shaped) (x h c : List ℤ) (hc : c.length = l.nCells) (r)
    (hr : l.rowStep x h c = some r) : r.1.length = l.nCells ∧ r.2.length = l.nCells := by
  simp only [rowStep, Option.bind_eq_bind, Option.bind_eq_some_iff, Option.some.injEq] at hr
  obtain ⟨aI, hI, aF, hF, aC, hC, aO, hO, aS, hS, rfl⟩ := hr
  have len : ∀ {t : LutLayer} {g : LSTMGate}, g.bias.length = l.nCells → ∀ {m : List ℤ},
      (l.gateRow g x h).mapM t.look = some m → m.length = l.nCells := by
    intro t g hg m hm
    rw [← ((mapM_some_iff _ _ _).mp hm).1, gateRow_length l g hg]
  have hcl : (l.cellRow aF c aI aC).length = l.nCells := by
    simp [cellRow, len hl.bi hI, len hl.bf hF, len hl.bc hC, hc]
  refine ⟨?_, hcl⟩
  have := ((mapM_some_iff _ _ _).mp hS).1
  simp [len hl.bo hO, ← this, hcl]

/-- All time steps for one sample. -/
def rowRun (l : LSTM) : List (List ℤ) → List ℤ → List ℤ → Option (List (List ℤ × List ℤ))
  | [], _, _ => some []
  | x :: xs, h, c => do
    let r ← l.rowStep x h c
    let rest ← l.rowRun xs r.1 r.2
    some (r :: rest)

theorem rowRun_length (l : LSTM) (xs h c r) (hr : l.rowRun xs h c = some r) : r.length = xs.length := by
  induction xs generalizing h c r with
  | nil => simp [rowRun] at hr; simp [← hr]
  | cons x xs ih =>
    simp only [rowRun, Option.bind_eq_bind, Option.bind_eq_some_iff, Option.some.injEq] at hr
    obtain ⟨s, _, rest, h2, rfl⟩ := hr
    simp [ih _ _ _ h2]

/-- Samples (all time steps) with their current states. -/
abbrev ZS := List (List ℤ) × List ℤ × List ℤ

/-- Time-major view of the per-sample results. -/
def timeMajor (T : ℕ) (rs : List (List (List ℤ × List ℤ))) : List (List (List ℤ) × List (List ℤ)) :=
  (List.range T).map (fun t => (rs.map (fun r => (r.getD t ([], [])).1), rs.map (fun r => (r.getD t ([], [])).2)))

theorem timeMajor_succ (T : ℕ) (rs : List (List (List ℤ × List ℤ))) :
    timeMajor (T + 1) rs =
      (rs.map (fun r => (r.getD 0 ([], [])).1), rs.map (fun r => (r.getD 0 ([], [])).2)) ::
        timeMajor T (rs.map List.tail) := by
  unfold timeMajor
  rw [List.range_succ_eq_map, List.map_cons, List.map_map]
  congr 1
  apply List.map_congr_left
  intro t _
  simp only [Function.comp, List.map_map]
  have : ∀ r : List (List ℤ × List ℤ), r.getD (t + 1) ([], []) = r.tail.getD t ([], []) := by
    intro r; cases r <;> simp
  congr 1 <;> (apply List.map_congr_left; intro r _; simp [this])

theorem swap_succ {α : Type} (X : List (List α)) (n : ℕ) (d : α) :
    swap X (n + 1) d = X.map (fun s => s.getD 0 d) :: swap (X.map List.tail) n d := by
  unfold swap
  rw [List.range_succ_eq_map, List.map_cons, List.map_map]
  congr 1
  apply List.map_congr_left
  intro t _
  simp only [Function.comp, List.map_map]
  apply List.map_congr_left
  intro s _
  cases s <;> simp

theorem bcastRows_self (A : List (List ℤ)) : bcastRows A A.length = some A := by simp [bcastRows]

theorem run_rows (l : LSTM) (hl : l.Shaped) (T : ℕ) (Z : List ZS) (hZ : Z ≠ [])
    (hT : ∀ z ∈ Z, z.1.length = T) (hc : ∀ z ∈ Z, z.2.2.length = l.nCells) (H C : List (List ℤ))
    (hH : bcastRows H Z.length = some (Z.map (fun z => z.2.1)))
    (hC : bcastRows C Z.length = some (Z.map (fun z => z.2.2))) :
    l.run (swap (Z.map (fun z => z.1)) T []) H C =
      (Z.mapM (fun z => l.rowRun z.1 z.2.1 z.2.2)).map (timeMajor T) := by
  induction T generalizing Z H C with
  | zero =>
    have : Z.mapM (fun z => l.rowRun z.1 z.2.1 z.2.2) = some (Z.map (fun _ => [])) := by
      apply mapM_eq_map
      intro z hz
      rw [List.length_eq_zero_iff.mp (hT z hz)]
      rfl
    rw [this]
    rfl
  | succ T ih =>
    rw [swap_succ]
    simp only [run]
    let Z3 : List Z3 := Z.map (fun z => (z.1.getD 0 [], z.2.1, z.2.2))
    have e1 : (Z.map (fun z => z.1)).map (fun s => s.getD 0 []) = Z3.map (fun z => z.1) := by
      simp [Z3]
    have hs := l.step_rows hl Z3 (by simpa [Z3] using hZ)
      (by intro z hz
          obtain ⟨z', hz', rfl⟩ := List.mem_map.mp hz
          exact hc z' hz') H C (by simpa [Z3, Function.comp_def] using hH)
      (by simpa [Z3, Function.comp_def] using hC)
    rw [e1, hs]
    -- per-sample decomposition
    have hrow : ∀ z ∈ Z, l.rowRun z.1 z.2.1 z.2.2 =
        ((l.rowStep (z.1.getD 0 []) z.2.1 z.2.2).map (fun r => (r, z.1.tail))).bind
          (fun p => (l.rowRun p.2 p.1.1 p.1.2).map (fun rest => p.1 :: rest)) := by
      intro z hz
      have := hT z hz
      obtain ⟨xs, h, c⟩ := z
      cases xs with
      | nil => simp at this
      | cons x xs =>
        simp only [rowRun, List.getD_cons_zero, List.tail_cons]
        cases l.rowStep x h c with
        | none => rfl
        | some r =>
          simp only [Option.bind_eq_bind, Option.bind_some, Option.map_some]
          cases l.rowRun xs r.1 r.2 <;> rfl
    have hcong : Z.mapM (fun z => l.rowRun z.1 z.2.1 z.2.2) =
        Z.mapM (fun z => ((l.rowStep (z.1.getD 0 []) z.2.1 z.2.2).map (fun r => (r, z.1.tail))).bind
          (fun p => (l.rowRun p.2 p.1.1 p.1.2).map (fun rest => p.1 :: rest))) :=
      mapM_congr' _ _ _ hrow
    rw [hcong, mapM_bind]
    rcases mapM_cases (fun z : ZS => l.rowStep (z.1.getD 0 []) z.2.1 z.2.2) Z with ⟨g, eg, hg⟩ | ⟨⟨z, hz, e⟩, hg⟩
    swap
    · have h1 : Z3.mapM (fun z => l.rowStep z.1 z.2.1 z.2.2) = none := by
        rw [List.mapM_map]; exact hg
      have h2 : Z.mapM (fun z => (l.rowStep (z.1.getD 0 []) z.2.1 z.2.2).map (fun r => (r, z.1.tail))) = none := by
        rw [mapM_none_iff]; exact ⟨z, hz, by rw [e]; rfl⟩
      rw [h1, h2]; rfl
    have h1 : Z3.mapM (fun z => l.rowStep z.1 z.2.1 z.2.2) = some (Z.map g) := by
      rw [List.mapM_map]; exact hg
    have h2 : Z.mapM (fun z => (l.rowStep (z.1.getD 0 []) z.2.1 z.2.2).map (fun r => (r, z.1.tail)))
        = some (Z.map (fun z => (g z, z.1.tail))) := by
      apply mapM_eq_map; intro z hz; rw [eg z hz]; rfl
    rw [h1, h2]
    simp only [Option.map_some, Option.bind_eq_bind, Option.bind_some]
    let Z' : List ZS := Z.map (fun z => (z.1.tail, (g z).1, (g z).2))
    have ih' := ih Z' (by simpa [Z'] using hZ)
      (by intro z hz
          obtain ⟨z', hz', rfl⟩ := List.mem_map.mp hz
          simp [hT z' hz'])
      (by intro z hz
          obtain ⟨z', hz', rfl⟩ := List.mem_map.mp hz
          exact (rowStep_length l hl _ _ _ (hc z' hz') _ (eg z' hz')).2)
      ((Z.map g).map Prod.fst) ((Z.map g).map Prod.snd)
      (by simp [Z', bcastRows]) (by simp [Z', bcastRows])
    have e2 : (Z.map (fun z => z.1)).map List.tail = Z'.map (fun z => z.1) := by simp [Z']
    rw [e2, ih', List.mapM_map, List.mapM_map]
    have e3 : (Z.mapM ((fun p : (List ℤ × List ℤ) × List (List ℤ) =>
          (l.rowRun p.2 p.1.1 p.1.2).map (fun rest => p.1 :: rest)) ∘ fun z => (g z, z.1.tail))) =
        (Z.mapM (fun z => l.rowRun z.1.tail (g z).1 (g z).2)).map (fun rs => List.zipWith (fun z r => g z :: r) Z rs) := by
      rcases mapM_cases (fun z : ZS => l.rowRun z.1.tail (g z).1 (g z).2) Z with ⟨k, ek, hk⟩ | ⟨⟨z, hz, e⟩, hk⟩
      · rw [hk, mapM_eq_map _ (fun z => g z :: k z)]
        · simp [zipWith_map_self]
        · intro z hz
          simp only [Function.comp, ek z hz]
          rfl
      · rw [hk, (mapM_none_iff _ _).mpr ⟨z, hz, ?_⟩]
        · rfl
        · simp only [Function.comp, e]; rfl
    rw [e3]
    show Option.bind (Option.map (timeMajor T) (Z.mapM (fun z => l.rowRun z.1.tail (g z).1 (g z).2))) _ = _
    rcases mapM_cases (fun z : ZS => l.rowRun z.1.tail (g z).1 (g z).2) Z with ⟨k, ek, hk⟩ | ⟨⟨z, hz, e⟩, hk⟩
    · rw [hk]
      simp only [Option.map_some, Option.bind_some, timeMajor_succ]
      simp [Function.comp_def, zipWith_map_self]
    · rw [hk]; rfl

end LSTM
end Verif
