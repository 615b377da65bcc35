import Verif.Model.QuboBuild
import Verif.Props.Build
import Verif.Props.QuboExtra
import Verif.Lemmas.KernelExport
import Verif.Props.Layout

/-! # Lemmas for C82: the QUBO optimizer inside `build` -/

namespace Verif
open Keras Spec

namespace Build

/-- The float data along the results, and the float kernels in the nodes. -/
inductive Flow (W : World) : Arr ℚ → List KLayer → List QRes → Prop
  | nil (X) : Flow W X [] []
  | skip {X l ls rs} (hl : l = .dropout ∨ l = .input) (h : Flow W X ls rs) : Flow W X (l :: ls) rs
  | dense {X ls rs} {l : KDense} {r : QRes} {inp : Ref} (k : ℕ) (pre : Arr ℚ) (hp : l.pre X = some pre)
      (hd : r.data = if upper l.actName ∈ skipFunctions then pre else pre.map l.act)
      (ho : r.ops.head? = some (fcAt k l inp))
      (hf : (∃ n, ShapeOk l n) →
        (W.nodes k).tensor.map TensorPart.fp = some ⟨[l.units, l.kernel.length], l.kernelT.flatten⟩)
      (h : Flow W r.data ls rs) : Flow W X (.dense l :: ls) (r :: rs)

theorem dense_flow {w w' : World} {c : DenseCfg} {l : KDense} {prev q : QRes} {r : Ref}
    (hq : l.quantize w c prev = some (w', q)) (hr : prev.out = some r) (hlive : r.id < w.next) :
    ∃ pre, l.pre prev.data = some pre ∧ q.data = (if upper l.actName ∈ skipFunctions then pre else pre.map l.act) ∧
      q.ops.head? = some (fcAt w.next l r) ∧ ((∃ n, ShapeOk l n) →
        (w'.nodes w.next).tensor.map TensorPart.fp = some ⟨[l.units, l.kernel.length], l.kernelT.flatten⟩) := by
  obtain ⟨qk, qa, qba, qb, input, kn, pre, d, p, e1, e2, e3, e4, hin, e5, e6, e7, e8, -, hq⟩ := l.quantize_spec hq
  rw [hr] at hin
  injection hin with hin
  subst hin
  have hfc := fcWorld_nodes w l r kn qb qba p prev.data hlive
  have hfn := fcWorld_next w l r kn qb qba p prev.data
  have n0 : (fcWorld w l r kn qb qba p prev.data).nodes w.next = kn := by
    rw [hfc, if_neg (by omega), if_neg (by omega), if_pos rfl]
  have hkn : (∃ n, ShapeOk l n) → kn.tensor.map TensorPart.fp = some ⟨[l.units, l.kernel.length], l.kernelT.flatten⟩ := by
    rintro ⟨n, hn⟩
    obtain ⟨s, z, -, rfl⟩ := kernelNode_eq e5 hn.units (by rw [hn.inputs]; exact hn.pos)
    rfl
  rcases hq with ⟨hsk, rfl, rfl⟩ | ⟨hsk, o, ho, rfl, rfl⟩
  · exact ⟨pre, e6, by rw [if_pos hsk], rfl, fun h => by rw [n0]; exact hkn h⟩
  · refine ⟨pre, e6, by rw [if_neg hsk], rfl, fun h => ?_⟩
    rw [World.alloc_nodes]
    by_cases hl : l.isLut = true
    · rw [if_pos hl, if_neg (by show w.next ≠ w.next + 3; omega), World.setNode_nodes, if_neg (by omega), n0]
      exact hkn h
    · rw [if_neg hl, if_neg (by rw [hfn]; omega), n0]
      exact hkn h

theorem layers_flow {ext : Ext} {cfg : Cfg} (ls : List KLayer) (hls : ∀ l, KLayer.lstm l ∉ ls) :
    ∀ {w w' : World} {prev last : QRes} {rs : List QRes} {r : Ref},
    quantizeLayers ext cfg w prev ls = some (w', last, rs) → prev.out = some r → KInv w r →
    Flow w' prev.data ls rs := by
  induction ls with
  | nil =>
    intro w w' prev last rs r h hr hk
    simp only [quantizeLayers, Option.some.injEq, Prod.mk.injEq] at h
    obtain ⟨rfl, rfl, rfl⟩ := h
    exact .nil _
  | cons l ls ih =>
    intro w w' prev last rs r h hr hk
    have hls' : ∀ l, KLayer.lstm l ∉ ls := fun l hl => hls l (List.mem_cons_of_mem _ hl)
    simp only [quantizeLayers, Option.bind_eq_bind, Option.bind_eq_some_iff] at h
    obtain ⟨⟨w1, q⟩, hs, h⟩ := h
    cases l with
    | lstm l => exact absurd List.mem_cons_self (hls l)
    | other => simp [layerStep] at hs
    | dropout =>
      simp only [layerStep, Option.some.injEq, Prod.mk.injEq] at hs
      obtain ⟨rfl, rfl⟩ := hs
      exact .skip (.inl rfl) (ih hls' h hr hk)
    | input =>
      simp only [layerStep, Option.some.injEq, Prod.mk.injEq] at hs
      obtain ⟨rfl, rfl⟩ := hs
      exact .skip (.inr rfl) (ih hls' h hr hk)
    | dense l =>
      simp only [layerStep, Option.bind_eq_bind, Option.bind_eq_some_iff, Option.some.injEq, Prod.mk.injEq] at hs
      obtain ⟨c, hc, ⟨w1', r1⟩, hq, rfl, rfl⟩ := hs
      simp only [Option.bind_eq_some_iff, Option.some.injEq, Prod.mk.injEq] at h
      obtain ⟨⟨w2, last', rs'⟩, h2, rfl, rfl, rfl⟩ := h
      obtain ⟨o, ho, hko, g1, g2, g3, g4, g6, g5⟩ := dense_step hq hr hk
      obtain ⟨pre, f1, f2, f3, f4⟩ := dense_flow hq hr hk.live
      have hlt : w.next < w1'.next := by
        rcases g5 with ⟨-, s2, -⟩ | ⟨-, s2, -, -⟩ <;> omega
      have hfr := (layers_stack ls hls' h2 ho hko).2.2.2.1
      refine .dense w.next pre f1 f2 f3 ?_ (ih hls' h2 ho hko)
      intro hsh
      show (w2.nodes w.next).tensor.map TensorPart.fp = _
      rw [hfr _ hlt]
      exact f4 hsh

theorem model_flow {ext : Ext} {cfg : Cfg} {x : Arr ℚ} {ls : List KLayer} {w : World} {rs : List QRes}
    (hls : ∀ l, KLayer.lstm l ∉ ls) (h : quantizeModel ext cfg x ls = some (w, rs)) :
    ∃ i rs' d o, rs = [i] ++ rs' ++ [d] ∧ i.data = x ∧
      i.ops = [{ opType := "QUANTIZE", name := "QUANTIZE", inputs := [], outputs := [⟨0, true⟩] }] ∧
      d.ops = [{ opType := "DEQUANTIZE", name := "DEQUANTIZE", inputs := [o], outputs := [] }] ∧ o.id < w.next ∧
      Stack w 1 ls rs' ∧ Flow w x ls rs' := by
  obtain ⟨-, -, -, i0, rs0, d0, o0, e0, hi0, hd0, ho0, hst⟩ := model_stack hls h
  unfold quantizeModel at h
  simp only [Option.bind_eq_bind, Option.bind_eq_some_iff, Option.some.injEq, Prod.mk.injEq] at h
  obtain ⟨⟨w0, i⟩, hi, ⟨w1, last, rs'⟩, hl, d, hd, rfl, rfl⟩ := h
  simp only [List.cons_append, List.nil_append, List.cons.injEq] at e0
  obtain ⟨rfl, e0⟩ := e0
  obtain ⟨rfl, e1⟩ := List.append_inj' e0 rfl
  injection e1 with e1
  subst e1
  unfold inputQuantize at hi
  simp only [Option.bind_eq_bind, Option.bind_eq_some_iff, Option.some.injEq, Prod.mk.injEq] at hi
  obtain ⟨q, hq, p, hp, rfl, rfl⟩ := hi
  obtain ⟨a1, a2⟩ := (World.inv_empty (Node.base 0 0 (intDtype 7))).alloc ((Node.base p.1 p.2 q).withTensor x.toFArr)
  have hlt : (World.alloc (World.empty (Node.base 0 0 (intDtype 7))) ((Node.base p.1 p.2 q).withTensor x.toFArr)).next = 1 := rfl
  have hk : KInv (World.alloc (World.empty (Node.base 0 0 (intDtype 7))) ((Node.base p.1 p.2 q).withTensor x.toFArr))
      ⟨0, true⟩ := by
    refine ⟨a1, ?_, ?_, ?_, ?_⟩
    · rw [hlt]
      intro i hi
      obtain rfl : i = 0 := by omega
      exact ⟨Node.canon_withTensor _ (Node.canon_base _ _ _) _, repr_read hq, rfl⟩
    · rw [hlt]; exact Nat.zero_lt_one
    · rw [a2]; simp [World.biases, World.empty]
    · exact ⟨(cal_legal hp (quantization_range hq).1).1, (quantization_range hq).1,
        (cal_legal hp (quantization_range hq).1).2⟩
  have hf := layers_flow ls hls hl rfl hk
  exact ⟨_, rs', d, o0, rfl, rfl, hi0, hd0, ho0, hst, hf⟩

/-! ## One layer -/

/-- The kernel bits of the second pass, row by row. -/
def kBits (ask : ℕ → QDict → ℕ → Bool) (p : QuboIn) : List ℕ :=
  (List.range p.O).flatMap (fun l => (List.range p.D).map (fun i =>
    if ask (p.O + l) (ADAInt.qubo p l) (p.kVar l i) then 1 else 0))

/-- The bias bits of the second pass. -/
def bBits (ask : ℕ → QDict → ℕ → Bool) (p : QuboIn) : List ℕ :=
  (List.range p.O).map (fun l => if ask (p.O + l) (ADAInt.qubo p l) (p.bVar l) then 1 else 0)

theorem quboPolicies_eq (ask : ℕ → QDict → ℕ → Bool) (p : QuboIn) :
    quboPolicies ask p = some [⟨[p.O, p.D], kBits ask p⟩, ⟨[p.O], bBits ask p⟩] := by
  obtain ⟨first, h, -⟩ := C79_second_pass_wins (fun k J v => if ask k J v then 1 else 0) p
  have key : ∀ b : Bool, (if b = true then (1 : ℚ) else 0).num.toNat = if b = true then 1 else 0 := by decide
  unfold quboPolicies
  rw [h]
  simp only [Option.bind_eq_bind, Option.bind_some, Option.some.injEq, List.cons.injEq, Pol.mk.injEq, true_and, and_true]
  refine ⟨?_, ?_⟩
  · rw [List.map_flatten, List.map_map, kBits, List.flatMap]
    congr 1
    refine List.map_congr_left (fun l _ => ?_)
    simp only [Function.comp_apply, List.map_map]
    exact List.map_congr_left (fun i _ => key _)
  · rw [bBits, List.map_map]
    exact List.map_congr_left (fun i _ => key _)

theorem kBits_length (ask : ℕ → QDict → ℕ → Bool) (p : QuboIn) : (kBits ask p).length = p.O * p.D := by
  simp [kBits, List.length_flatMap]

theorem bBits_length (ask : ℕ → QDict → ℕ → Bool) (p : QuboIn) : (bBits ask p).length = p.O := by
  simp [bBits]

theorem kBits_bit (ask : ℕ → QDict → ℕ → Bool) (p : QuboIn) : ∀ b ∈ kBits ask p, b = 0 ∨ b = 1 := by
  intro b hb
  simp only [kBits, List.mem_flatMap, List.mem_map] at hb
  obtain ⟨l, -, i, -, rfl⟩ := hb
  split_ifs <;> simp

theorem bBits_bit (ask : ℕ → QDict → ℕ → Bool) (p : QuboIn) : ∀ b ∈ bBits ask p, b = 0 ∨ b = 1 := by
  intro b hb
  simp only [bBits, List.mem_map] at hb
  obtain ⟨l, -, rfl⟩ := hb
  split_ifs <;> simp

/-- Writing the policy of a tensor. -/
theorem writeOne_tensor {w : World} {i : ℕ} {p : Pol} {a : FArr} (ht : TOk w (.tensor i))
    (ha : (w.nodes i).tensor.map TensorPart.fp = some a) (hp : p.shape = a.shape) (hl : p.data.length = a.data.length)
    (hb : ∀ b ∈ p.data, b = 0 ∨ b = 1) :
    ∃ w', writeOne w (.tensor i) p = some w' ∧ Round w w' ∧ (∀ j, j ≠ i → w'.nodes j = w.nodes j) ∧
      (w'.nodes i).tensor.map (fun t => t.policy.data) = some (p.data.map (fun (v : ℕ) => (v : ℚ))) := by
  obtain ⟨tp, htp, rfl⟩ := Option.map_eq_some_iff.mp ha
  obtain ⟨g0, g1, g2, -⟩ := ht.1.tensor tp htp
  obtain ⟨w', h1, h2⟩ := writeOne_ok ht (p := p) ⟨hb,
    ⟨tp.policy.shape, tp.policy.data.map (fun v => v.num.toNat)⟩, by simp only [policyOf, htp, Option.map_some],
    by rw [hp, ← g1], by simp only [List.length_map]; rw [hl, g2]⟩
  refine ⟨w', h1, h2, ?_⟩
  unfold writeOne Node.setPolicy at h1
  simp only [htp] at h1
  rw [if_neg (not_not.mpr hp)] at h1
  simp only [Option.map_some, Option.some.injEq] at h1
  subst h1
  refine ⟨fun j hj => by rw [World.setNode_nodes, if_neg hj], ?_⟩
  rw [World.setNode_nodes, if_pos rfl]
  rfl

/-- The two policies of a layer. -/
theorem write_two {w : World} {k : ℕ} {ts : List Target} {p1 p2 : Pol} {a1 a2 : FArr}
    (t1 : TOk w (.tensor k)) (t2 : TOk w (.tensor (k + 1)))
    (ha : (w.nodes k).tensor.map TensorPart.fp = some a1) (hp : p1.shape = a1.shape)
    (hl : p1.data.length = a1.data.length) (hb : ∀ b ∈ p1.data, b = 0 ∨ b = 1)
    (ha2 : (w.nodes (k + 1)).tensor.map TensorPart.fp = some a2) (hp2 : p2.shape = a2.shape)
    (hl2 : p2.data.length = a2.data.length) (hb2 : ∀ b ∈ p2.data, b = 0 ∨ b = 1) :
    ∃ w', write w (.tensor k :: .tensor (k + 1) :: ts) [p1, p2] = some w' ∧ Round w w' ∧
      (∀ j, j ≠ k → j ≠ k + 1 → w'.nodes j = w.nodes j) ∧
      (w'.nodes k).tensor.map (fun t => t.policy.data) = some (p1.data.map (fun (v : ℕ) => (v : ℚ))) ∧
      (w'.nodes (k + 1)).tensor.map (fun t => t.policy.data) = some (p2.data.map (fun (v : ℕ) => (v : ℚ))) := by
  obtain ⟨w1, e1, r1, f1, q1⟩ := writeOne_tensor t1 ha hp hl hb
  obtain ⟨w2, e2, r2, f2, q2⟩ := writeOne_tensor (r1.tok t2) (by rw [f1 _ (by omega)]; exact ha2) hp2 hl2 hb2
  refine ⟨w2, ?_, r1.trans r2, fun j h1 h2 => by rw [f2 j h2, f1 j h1], by rw [f2 k (by omega)]; exact q1, q2⟩
  unfold write
  simp only [Option.bind_eq_bind]
  rw [e1, Option.bind_some]
  unfold write
  simp only [Option.bind_eq_bind]
  rw [e2, Option.bind_some]
  unfold write
  cases ts <;> rfl

/-- What the optimizer has done to the layer of a result whose float input was `X`. -/
def LayerDone (ask : ℕ → ℕ → QDict → ℕ → Bool) (w : World) (X : Arr ℚ) (r : QRes) : Prop :=
  ∃ l k inp M Y m p, r.ops.head? = some (fcAt k l inp) ∧ X = .mat M ∧ M ≠ [] ∧
    (∀ x ∈ M, x.length = l.kernel.length) ∧ r.data = .mat Y ∧ (∃ n, ShapeOk l n) ∧
    quboIn w (fcAt k l inp) l M Y = some p ∧
    (w.nodes k).tensor.map TensorPart.fp = some ⟨[l.units, l.kernel.length], l.kernelT.flatten⟩ ∧
    (w.nodes (k + 1)).tensor.map TensorPart.fp = some ⟨[l.biasV.length], l.biasV⟩ ∧
    (w.nodes k).tensor.map (fun t => t.policy.data) = some ((kBits (ask m) p).map (fun (v : ℕ) => (v : ℚ))) ∧
    (w.nodes (k + 1)).tensor.map (fun t => t.policy.data) = some ((bBits (ask m) p).map (fun (v : ℕ) => (v : ℚ))) ∧
    inp.id < k

theorem samples2_mat {M : List (List ℚ)} (h : M ≠ []) : samples2 (.mat M) = some M := by
  cases M with
  | nil => exact absurd rfl h
  | cons a M => rfl

theorem quboIn_congr {w w' : World} {k : ℕ} {l : KDense} {inp : Ref} {X Y : List (List ℚ)}
    (h : ∀ j, j = inp.id ∨ j = k ∨ j = k + 1 → (w'.nodes j).scale = (w.nodes j).scale) :
    quboIn w' (fcAt k l inp) l X Y = quboIn w (fcAt k l inp) l X Y := by
  unfold quboIn
  simp only [fcAt, List.getElem?_cons_zero, List.getElem?_cons_succ, Option.bind_eq_bind, Option.bind_some,
    h _ (.inl rfl), h _ (.inr (.inl rfl)), h _ (.inr (.inr rfl))]

theorem LayerDone.frame {ask : ℕ → ℕ → QDict → ℕ → Bool} {w w' : World} {X : Arr ℚ} {r : QRes} {n : ℕ}
    (h : LayerDone ask w X r) (hn : ∀ l k inp, r.ops.head? = some (fcAt k l inp) → k + 2 ≤ n)
    (hf : ∀ j < n, w'.nodes j = w.nodes j) : LayerDone ask w' X r := by
  obtain ⟨l, k, inp, M, Y, m, p, h1, h2, h3, h4, h5, h6, h7, h8, h9, h10, h11, h12⟩ := h
  have hk := hn l k inp h1
  refine ⟨l, k, inp, M, Y, m, p, h1, h2, h3, h4, h5, h6, ?_, ?_, ?_, ?_, ?_, h12⟩
  · rw [quboIn_congr (w := w), h7]
    rintro j (rfl | rfl | rfl) <;> rw [hf _ (by omega)]
  · rw [hf _ (by omega)]; exact h8
  · rw [hf _ (by omega)]; exact h9
  · rw [hf _ (by omega)]; exact h10
  · rw [hf _ (by omega)]; exact h11

theorem quboLayer_ok {ask : ℕ → ℕ → QDict → ℕ → Bool} {w : World} {r : QRes} {ts : List Target} {l : KDense}
    {M : List (List ℚ)} {k m : ℕ} {inp : Ref} {pre : Arr ℚ} (hM : M ≠ []) (hp : l.pre (.mat M) = some pre)
    (hd : r.data = if upper l.actName ∈ skipFunctions then pre else pre.map l.act)
    (ho : r.ops.head? = some (fcAt k l inp)) (hsh : ∃ n, ShapeOk l n) (hi : inp.id < k)
    (t1 : TOk w (.tensor k)) (t2 : TOk w (.tensor (k + 1)))
    (f1 : (w.nodes k).tensor.map TensorPart.fp = some ⟨[l.units, l.kernel.length], l.kernelT.flatten⟩)
    (f2 : (w.nodes (k + 1)).tensor.map TensorPart.fp = some ⟨[l.biasV.length], l.biasV⟩) :
    ∃ w' Y, r.data = .mat Y ∧ Y ≠ [] ∧
      quboLayer (ask m) w r (.tensor k :: .tensor (k + 1) :: ts) l (.mat M) = some w' ∧ Round w w' ∧
      (∀ j, j ≠ k → j ≠ k + 1 → w'.nodes j = w.nodes j) ∧ LayerDone ask w' (.mat M) r := by
  unfold KDense.pre at hp
  simp only at hp
  have hrow : ∀ x ∈ M, x.length = l.kernel.length := by
    by_contra hc
    rw [if_neg hc] at hp
    cases hp
  rw [if_pos hrow, Option.some.injEq] at hp
  obtain ⟨Y, hY, hYne⟩ : ∃ Y, r.data = .mat Y ∧ Y ≠ [] := by
    rw [hd, ← hp]
    by_cases hs : upper l.actName ∈ skipFunctions
    · rw [if_pos hs]
      exact ⟨_, rfl, by simpa using hM⟩
    · rw [if_neg hs]
      exact ⟨_, rfl, by simpa using hM⟩
  obtain ⟨n, hn⟩ := hsh
  have hbl := biasV_length hn
  obtain ⟨p, hq, hD, hO⟩ : ∃ p, quboIn w (fcAt k l inp) l M Y = some p ∧ p.D = l.kernel.length ∧ p.O = l.biasV.length := by
    refine ⟨_, rfl, ?_, rfl⟩
    show (M.getD 0 []).length = _
    cases M with
    | nil => exact absurd rfl hM
    | cons a M => exact hrow a (by simp)
  have hlen : l.kernelT.flatten.length = l.units * l.kernel.length := by
    obtain ⟨-, a, ha, hwf, -⟩ := t1
    rw [f1, Option.some.injEq] at ha
    subst ha
    simpa [FArr.WF] using hwf
  obtain ⟨w', e, rr, fr, q1, q2⟩ := write_two (ts := ts) (p1 := ⟨[p.O, p.D], kBits (ask m) p⟩)
    (p2 := ⟨[p.O], bBits (ask m) p⟩) t1 t2 f1 (by simp only [hD, hO, hbl])
    (by simp only [kBits_length, hD, hO, hbl, hlen]) (kBits_bit _ _) f2 (by simp only [hO])
    (by simp only [bBits_length, hO]) (bBits_bit _ _)
  refine ⟨w', Y, hY, hYne, ?_, rr, fr, l, k, inp, M, Y, m, p, ho, rfl, hM, hrow, hY, ⟨n, hn⟩, ?_, ?_, ?_, q1, q2, hi⟩
  · unfold quboLayer
    simp only [ho, samples2_mat hM, hY, samples2_mat hYne, Option.bind_eq_bind, Option.bind_some, hq, quboPolicies_eq, e]
  · rw [quboIn_congr (w := w), hq]
    rintro j -
    exact (rr.still j).scale
  · rw [(rr.still k).fp]; exact f1
  · rw [(rr.still (k + 1)).fp]; exact f2

/-! ## The loop -/

theorem upd_fp_eq {W w0 w : World} (hu : Upd W w0) (hr : Round w0 w) {i : ℕ} (hi : i < W.next) :
    (w.nodes i).tensor.map TensorPart.fp = (W.nodes i).tensor.map TensorPart.fp := by
  obtain ⟨s, z, e⟩ := hu i hi
  rw [(hr.still i).fp, e, upd_fp]

theorem quboLoop_ok {ask : ℕ → ℕ → QDict → ℕ → Bool} {W w0 : World} (hu : Upd W w0) {d : QRes}
    (hdo : ∀ w, targetsOf w d = some []) {lo : ℕ} {ls : List KLayer} {rs : List QRes} (hst : Stack W lo ls rs) :
    ∀ {M : List (List ℚ)}, Flow W (.mat M) ls rs → M ≠ [] → (∀ l, KLayer.dense l ∈ ls → ∃ n, ShapeOk l n) →
    ∀ (n : ℕ) (w : World), Round w0 w → ∃ w', quboLoop ask n (denses ls) (.mat M) (rs ++ [d]) w = some w' ∧
      Round w w' ∧ (∀ j < lo, w'.nodes j = w.nodes j) ∧
      ∀ (j : ℕ) Xj r, (Arr.mat M :: rs.map QRes.data)[j]? = some Xj → rs[j]? = some r → LayerDone ask w' Xj r := by
  have finish : ∀ {lo lo' : ℕ} {ls : List KLayer} {rs : List QRes} {l : KDense} {r : QRes} {k : ℕ} {inp : Ref}
      {M : List (List ℚ)} {ts : List Target} {pre : Arr ℚ},
      (∀ {M : List (List ℚ)}, Flow W (.mat M) ls rs → M ≠ [] → (∀ l, KLayer.dense l ∈ ls → ∃ n, ShapeOk l n) →
        ∀ (n : ℕ) (w : World), Round w0 w → ∃ w', quboLoop ask n (denses ls) (.mat M) (rs ++ [d]) w = some w' ∧
          Round w w' ∧ (∀ j < lo', w'.nodes j = w.nodes j) ∧
          ∀ (j : ℕ) Xj r, (Arr.mat M :: rs.map QRes.data)[j]? = some Xj → rs[j]? = some r → LayerDone ask w' Xj r) →
      lo ≤ k → k + 2 < lo' → k + 2 < W.next → inp.id < lo → DenseOk W l k →
      r.ops.head? = some (fcAt k l inp) → l.pre (.mat M) = some pre →
      (r.data = if upper l.actName ∈ skipFunctions then pre else pre.map l.act) →
      ((∃ n, ShapeOk l n) →
        (W.nodes k).tensor.map TensorPart.fp = some ⟨[l.units, l.kernel.length], l.kernelT.flatten⟩) →
      Flow W r.data ls rs → M ≠ [] → (∀ l', KLayer.dense l' ∈ KLayer.dense l :: ls → ∃ n, ShapeOk l' n) →
      ∀ (n : ℕ) (w : World), Round w0 w → targetsOf w r = some (.tensor k :: .tensor (k + 1) :: ts) →
      ∃ w', quboLoop ask n (denses (.dense l :: ls)) (.mat M) (r :: rs ++ [d]) w = some w' ∧
        Round w w' ∧ (∀ j < lo, w'.nodes j = w.nodes j) ∧
        ∀ (j : ℕ) Xj r', (Arr.mat M :: (r :: rs).map QRes.data)[j]? = some Xj → (r :: rs)[j]? = some r' →
          LayerDone ask w' Xj r' := by
    intro lo lo' ls rs l r k inp M ts pre ih hlo hlo' hk hin hd ho hp hdat hf hfl hM hsh n w hr hts
    have hshl := hsh l (by simp)
    obtain ⟨t1, t2, -⟩ := targets_dense hu hk hd hshl
    obtain ⟨w1, Y, hY, hYne, e1, r1, fr1, ld⟩ := quboLayer_ok (ask := ask) (w := w) (m := n) (ts := ts) hM hp hdat ho hshl
      (by omega) (hr.tok t1) (hr.tok t2) (by rw [upd_fp_eq hu hr (by omega)]; exact hf hshl)
      (by rw [upd_fp_eq hu hr (by omega)]; exact hd.biasFp)
    rw [hY] at hfl
    obtain ⟨w2, e2, r2, fr2, ld2⟩ := ih hfl hYne (fun l' hl' => hsh l' (by simp [hl'])) (n + 1) w1 (hr.trans r1)
    refine ⟨w2, ?_, r1.trans r2, fun j hj => by rw [fr2 j (by omega), fr1 j (by omega) (by omega)], ?_⟩
    · have hden : denses (.dense l :: ls) = l :: denses ls := rfl
      rw [hden]
      show quboLoop ask n (l :: denses ls) (.mat M) (r :: (rs ++ [d])) w = _
      rw [quboLoop]
      simp only [hts, Option.bind_eq_bind, Option.bind_some, e1, hY, e2]
    · intro j Xj r' h1 h2
      cases j with
      | zero =>
        simp only [List.getElem?_cons_zero, Option.some.injEq] at h1 h2
        subst h1 h2
        refine ld.frame (n := lo') ?_ (fun j hj => fr2 j hj)
        intro l' k' inp' h'
        rw [ho, Option.some.injEq] at h'
        have := congrArg Op.outputs h'
        simp only [fcAt, List.cons.injEq, Ref.mk.injEq, and_true] at this
        omega
      | succ j =>
        simp only [List.getElem?_cons_succ, List.map_cons] at h1 h2
        rw [hY] at h1
        exact ld2 j Xj r' h1 h2
  induction hst with
  | nil lo =>
    intro M hfl hM hsh n w hr
    refine ⟨w, ?_, .refl w, fun _ _ => rfl, fun j Xj r _ h => by simp at h⟩
    show quboLoop ask n _ _ [d] w = _
    rw [quboLoop]
    simp only [hdo, Option.bind_eq_bind, Option.bind_some]
    rw [quboLoop]
  | @skip lo l ls rs hl h ih =>
    intro M hfl hM hsh n w hr
    have hden : denses (l :: ls) = denses ls := by
      rcases hl with rfl | rfl <;> rfl
    have hfl' : Flow W (.mat M) ls rs := by
      cases hfl with
      | skip _ h => exact h
      | dense => rcases hl with h | h <;> cases h
    rw [hden]
    exact ih hfl' hM (fun l' hl' => hsh l' (by simp [hl'])) n w hr
  | @plain lo ls rs l r inp k hlo hk hin ho hd hs h ih =>
    intro M hfl hM hsh n w hr
    cases hfl with
    | skip hl h => rcases hl with h | h <;> cases h
    | @dense _ _ _ _ _ inp' k' pre hp hdat ho' hf hfl =>
      obtain ⟨rfl, rfl⟩ : k' = k ∧ inp' = inp := by
        rw [ho, List.head?_cons, Option.some.injEq] at ho'
        have h1 := congrArg Op.inputs ho'
        simp only [fcAt, List.cons.injEq, Ref.mk.injEq, and_true] at h1
        exact ⟨h1.2.1.symm, h1.1.symm⟩
      refine finish ih hlo (by omega) hk hin.1 hd ho' hp hdat hf hfl hM hsh n w hr (ts := []) ?_
      unfold targetsOf
      rw [ho]
      simp only [fcAt, if_true]
      rfl
  | @act lo ls rs l r inp k hlo hk hin ho hd hs hal hab h ih =>
    intro M hfl hM hsh n w hr
    cases hfl with
    | skip hl h => rcases hl with h | h <;> cases h
    | @dense _ _ _ _ _ inp' k' pre hp hdat ho' hf hfl =>
      obtain ⟨rfl, rfl⟩ : k' = k ∧ inp' = inp := by
        rw [ho, List.head?_cons, Option.some.injEq] at ho'
        have h1 := congrArg Op.inputs ho'
        simp only [fcAt, List.cons.injEq, Ref.mk.injEq, and_true] at h1
        exact ⟨h1.2.1.symm, h1.1.symm⟩
      refine finish ih hlo (by omega) (by omega) hin.1 hd ho' hp hdat hf hfl hM hsh n w hr
        (ts := if (w.nodes (k' + 2)).lut.isSome then [.lut (k' + 2)] else []) ?_
      unfold targetsOf
      rw [ho]
      simp only [fcAt, actAt, if_true, Option.bind_eq_bind, List.getElem?_cons_zero, Option.bind_some]
      split_ifs <;> rfl

/-- The optimizer on a whole quantized model without LSTM layers. -/
theorem quboNet_ok {ask : ℕ → ℕ → QDict → ℕ → Bool} {ext : Ext} {cfg : Cfg} {M : List (List ℚ)} {ls : List KLayer}
    {w w0 : World} {rs : List QRes} (hls : ∀ l, KLayer.lstm l ∉ ls) (hM : M ≠ [])
    (hsh : ∀ l, KLayer.dense l ∈ ls → ∃ n, ShapeOk l n)
    (h : quantizeModel ext cfg (.mat M) ls = some (w, rs)) (hu : Upd w w0) :
    ∃ w', quboNet ask (.mat M) ls w0 rs = some w' ∧ Round w0 w' ∧
      ∀ (j : ℕ) prev r, rs[j]? = some prev → rs[j + 1]? = some r → (∃ op, r.ops.head? = some op ∧ op.inputs.length = 3) →
        LayerDone ask w' prev.data r := by
  obtain ⟨i, rs', d, o, rfl, hid, hi, hd, ho, hst, hfl⟩ := model_flow hls h
  have hdo : ∀ w, targetsOf w d = some [] := by
    intro w
    unfold targetsOf
    rw [hd]
    simp only
    rw [if_neg (by decide), if_neg (by decide)]
  have hio : ∀ w, targetsOf w i = some [] := by
    intro w
    unfold targetsOf
    rw [hi]
    simp only
    rw [if_neg (by decide), if_neg (by decide)]
  obtain ⟨w', e, rr, -, ld⟩ := quboLoop_ok (ask := ask) hu hdo hst hfl hM hsh 0 w0 (.refl w0)
  refine ⟨w', ?_, rr, ?_⟩
  · unfold quboNet
    show quboLoop ask 0 _ _ (i :: (rs' ++ [d])) w0 = _
    rw [quboLoop]
    simp only [hio, Option.bind_eq_bind, Option.bind_some, hid, e]
  · rintro j prev r hj hj1 ⟨op, hop, h3⟩
    simp only [List.cons_append, List.nil_append, List.getElem?_cons_succ] at hj hj1
    have hjl : j < rs'.length := by
      by_contra hc
      have hjd : j = rs'.length := by
        have := (List.getElem?_eq_some_iff.mp hj1).1
        simp only [List.length_append, List.length_singleton] at this
        omega
      rw [hjd, List.getElem?_append_right le_rfl] at hj1
      simp only [Nat.sub_self, List.getElem?_cons_zero, Option.some.injEq] at hj1
      subst hj1
      rw [hd, List.head?_cons, Option.some.injEq] at hop
      subst hop
      simp at h3
    rw [List.getElem?_append_left hjl] at hj1
    refine ld j prev.data r ?_ hj1
    cases j with
    | zero =>
      simp only [List.getElem?_cons_zero, Option.some.injEq] at hj ⊢
      rw [← hj, hid]
    | succ j =>
      simp only [List.getElem?_cons_succ, List.getElem?_map] at hj ⊢
      rw [List.getElem?_append_left (by omega)] at hj
      rw [hj]; rfl

end Build
end Verif
