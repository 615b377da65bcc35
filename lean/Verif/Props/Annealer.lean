import Verif.Model.Annealer
import Verif.Lemmas.Num
import Mathlib.Data.List.Forall2
import Mathlib.Data.Finset.Card
import Mathlib.Data.Fintype.Pi
import Mathlib.Data.Set.Finite.List
import Mathlib.Data.Set.Card
import Mathlib.Tactic.Ring

/-!
# Properties C40–C41: the rounding annealer
-/

namespace Verif
open Annealer

/-! ## Specification vocabulary -/

/-- Rounding policies: 0/1 arrays with consistent shape, at least one element along every axis. -/
def Spec.IsPolicy (t : Pol) : Prop := t.WF ∧ (∀ b ∈ t.data, b = 0 ∨ b = 1) ∧ 0 < t.data.length ∧ t.shape ≠ []

/-- `t'` has the shape of `t`, is still 0/1, and agrees with it at every flat position from the first dimension on. -/
def Spec.SameBeyond (t t' : Pol) : Prop :=
  t'.shape = t.shape ∧ t'.data.length = t.data.length ∧ (∀ b ∈ t'.data, b = 0 ∨ b = 1) ∧
    ∀ k, t.shape.headD 0 ≤ k → t'.data[k]? = t.data[k]?

/-- `t'` is `t` with exactly the bit at flat position `i` inverted. -/
def Spec.FlippedAt (t t' : Pol) (i : ℕ) : Prop :=
  t'.shape = t.shape ∧ t'.data.length = t.data.length ∧ t'.data[i]? = (t.data[i]?).map (fun b => 1 - b) ∧
    t'.data[i]? ≠ t.data[i]? ∧ ∀ k, k ≠ i → t'.data[k]? = t.data[k]?

open Spec

/-! ## Lemmas -/

theorem len_le_length {t : Pol} (h : t.WF) (hp : 0 < t.data.length) : t.len ≤ t.data.length := by
  unfold Pol.WF at h
  unfold Pol.len
  rw [h] at hp ⊢
  cases hs : t.shape with
  | nil => simp
  | cons a l =>
    rw [hs] at hp
    simp only [List.prod_cons, List.headD_cons] at hp ⊢
    exact Nat.le_mul_of_pos_right _ (Nat.pos_of_mul_pos_left hp)

theorem flip_spec {t : Pol} {i : ℕ} (hb : ∀ b ∈ t.data, b = 0 ∨ b = 1) (hi : i < t.data.length) :
    ∃ t', t.flip i = some t' ∧ FlippedAt t t' i ∧ (∀ b ∈ t'.data, b = 0 ∨ b = 1) := by
  have hx : ∀ b, (b = 0 ∨ b = 1) → b ^^^ 1 = 1 - b ∧ (b ^^^ 1 = 0 ∨ b ^^^ 1 = 1) ∧ b ^^^ 1 ≠ b := by
    rintro b (rfl | rfl) <;> decide
  have hget : t.data[i]? = some t.data[i] := List.getElem?_eq_getElem hi
  have hbi := hb t.data[i] (List.getElem_mem hi)
  have hm : (t.data.modify i (fun b => b ^^^ 1))[i]? = some (t.data[i] ^^^ 1) := by
    rw [List.getElem?_modify, hget]; simp
  refine ⟨{ t with data := t.data.modify i (fun b => b ^^^ 1) }, ?_, ⟨rfl, by simp, ?_, ?_, ?_⟩, ?_⟩
  · unfold Pol.flip; rw [if_pos hi]
  · simp only [hm, hget, Option.map_some, (hx _ hbi).1]
  · simp only [hm, hget, ne_eq, Option.some.injEq]
    exact (hx _ hbi).2.2
  · intro k hk
    rw [List.getElem?_modify]; simp [Ne.symm hk]
  · intro b hb'
    obtain ⟨k, hk⟩ := List.getElem?_of_mem hb'
    rw [List.getElem?_modify] at hk
    cases hd : t.data[k]? with
    | none => rw [hd] at hk; simp at hk
    | some c =>
      have hc := hb c (List.mem_of_getElem? hd)
      rw [hd] at hk
      simp only [Option.map_eq_map, Option.map_some, Option.some.injEq] at hk
      split_ifs at hk
      · rw [← hk]; exact (hx c hc).2.1
      · rw [← hk]; exact hc

theorem sameBeyond_refl {t : Pol} (h : ∀ b ∈ t.data, b = 0 ∨ b = 1) : SameBeyond t t :=
  ⟨rfl, rfl, h, fun _ _ => rfl⟩

theorem flips_spec (ts : List Pol) (is : List ℕ) (hv : ValidDraw ts is) (hp : ∀ t ∈ ts, IsPolicy t) :
    ∃ ts', flips ts is = some ts' ∧ List.Forall₂ (fun (p : Pol × ℕ) t' => FlippedAt p.1 t' p.2) (ts.zip is) ts' ∧
      ∀ t' ∈ ts', IsPolicy t' := by
  unfold ValidDraw at hv
  induction hv with
  | nil => exact ⟨[], rfl, .nil, by simp⟩
  | @cons t i ts is hi _ ih =>
    obtain ⟨ts', h1, h2, h3⟩ := ih (fun t ht => hp t (by simp [ht]))
    obtain ⟨hwf, hb, hpos, hne⟩ := hp t (by simp)
    have hlt : i < t.data.length := lt_of_lt_of_le hi (len_le_length hwf hpos)
    obtain ⟨t', e, hf, hb'⟩ := flip_spec hb hlt
    refine ⟨t' :: ts', by simp [flips, e, h1], .cons hf h2, ?_⟩
    intro u hu
    rcases List.mem_cons.mp hu with rfl | hu
    · refine ⟨?_, hb', by rw [hf.2.1]; exact hpos, by rw [hf.1]; exact hne⟩
      unfold Pol.WF at hwf ⊢
      rw [hf.1, hf.2.1, hwf]
    · exact h3 u hu

/-- The invariant of every search: shape, 0/1 and the untouched positions. -/
def Reach (s0 s : List Pol) : Prop := List.Forall₂ SameBeyond s0 s

theorem Reach.isPolicy {s0 s : List Pol} (h : Reach s0 s) (h0 : ∀ t ∈ s0, IsPolicy t) : ∀ t ∈ s, IsPolicy t := by
  unfold Reach at h
  induction h with
  | nil => simp
  | @cons t t' s0 s ht _ ih =>
    intro u hu
    rcases List.mem_cons.mp hu with rfl | hu
    · obtain ⟨hwf, hb, hpos, hne⟩ := h0 t (by simp)
      refine ⟨?_, ht.2.2.1, by rw [ht.2.1]; exact hpos, by rw [ht.1]; exact hne⟩
      unfold Pol.WF at hwf ⊢
      rw [ht.1, ht.2.1, hwf]
    · exact ih (fun t ht => h0 t (by simp [ht])) u hu

theorem Reach.validDraw {s0 s : List Pol} (h : Reach s0 s) {d : List ℕ} (hd : ValidDraw s0 d) : ValidDraw s d := by
  unfold Reach at h
  unfold ValidDraw at hd ⊢
  induction h generalizing d with
  | nil => exact hd
  | @cons t t' s0 s ht _ ih =>
    cases hd with
    | cons hi hd =>
      refine .cons ?_ (ih hd)
      unfold Pol.len at hi ⊢
      rw [ht.1]; exact hi

theorem Reach.refl {s0 : List Pol} (h0 : ∀ t ∈ s0, IsPolicy t) : Reach s0 s0 := by
  unfold Reach
  induction s0 with
  | nil => exact .nil
  | cons t s ih => exact .cons (sameBeyond_refl (h0 t (by simp)).2.1) (ih (fun u hu => h0 u (by simp [hu])))

theorem Reach.flips {s0 s s' : List Pol} {d : List ℕ} (h : Reach s0 s) (h0 : ∀ t ∈ s0, IsPolicy t)
    (hd : ValidDraw s0 d) (hf : Annealer.flips s d = some s') : Reach s0 s' := by
  obtain ⟨s'', e, hfl, hp⟩ := flips_spec s d (h.validDraw hd) (h.isPolicy h0)
  rw [hf] at e
  cases e
  unfold Reach at h ⊢
  unfold ValidDraw at hd
  clear hf h0
  induction hd generalizing s s' with
  | nil =>
    cases h
    simp only [List.zip_nil_right] at hfl
    cases hfl
    exact .nil
  | @cons t i s0 d hi hd ih =>
    cases h with
    | @cons _ t1 _ s1 ht hs =>
      simp only [List.zip_cons_cons] at hfl
      cases hfl with
      | @cons _ t2 _ s2 hft hfs =>
        refine .cons ⟨?_, ?_, ?_, ?_⟩ (ih hs hfs (fun u hu => hp u (by simp [hu])))
        · rw [hft.1, ht.1]
        · rw [hft.2.1, ht.2.1]
        · exact (hp t2 (by simp)).2.1
        · intro k hk
          have : k ≠ i := by
            unfold Pol.len at hi; omega
          rw [hft.2.2.2.2 k this, ht.2.2.2 k hk]

theorem move_eq (a : Annealer) (hp : a.past = []) (d : List ℕ) (ds : List (List ℕ)) :
    a.move (d :: ds) = (flips a.state d).map (fun s => ({ a with state := s }, ds)) := by
  unfold move
  rw [hp, if_pos (by simp)]

/-- What a search may assume and must keep. -/
structure Inv (s0 : List Pol) (a : Annealer) : Prop where
  past : a.past = []
  reach : Reach s0 a.state

theorem move_inv {s0 : List Pol} (h0 : ∀ t ∈ s0, IsPolicy t) {a : Annealer} (ha : Inv s0 a) {ds : List (List ℕ)}
    (hds : ∀ d ∈ ds, ValidDraw s0 d) {a' : Annealer} {ds' : List (List ℕ)} (h : a.move ds = some (a', ds')) :
    Inv s0 a' ∧ (∀ d ∈ ds', ValidDraw s0 d) ∧ ds'.length + 1 = ds.length := by
  cases ds with
  | nil => simp [move] at h
  | cons d ds =>
    rw [move_eq a ha.past, Option.map_eq_some_iff] at h
    obtain ⟨s, hs, heq⟩ := h
    cases heq
    exact ⟨⟨ha.past, ha.reach.flips h0 (hds d (by simp)) hs⟩, fun d hd => hds d (by simp [hd]), rfl⟩

/-- With a draw left, a move succeeds. -/
theorem move_total {s0 : List Pol} (h0 : ∀ t ∈ s0, IsPolicy t) {a : Annealer} (ha : Inv s0 a) {d : List ℕ}
    {ds : List (List ℕ)} (hd : ValidDraw s0 d) : ∃ a', a.move (d :: ds) = some (a', ds) := by
  obtain ⟨s, hs, -⟩ := flips_spec a.state d (ha.reach.validDraw hd) (ha.reach.isPolicy h0)
  exact ⟨{ a with state := s }, by rw [move_eq a ha.past, hs]; rfl⟩

/-! ## C40 -/

/-- C40.  A move never gets stuck: with any valid random tuple it inverts exactly one bit of every tensor, the drawn one,
keeps all shapes, and the policies stay 0/1. -/
theorem C40_move (policies : List Pol) (h : ∀ t ∈ policies, IsPolicy t) (d : List ℕ) (ds : List (List ℕ))
    (hd : ValidDraw policies d) :
    ∃ a', (init policies).move (d :: ds) = some (a', ds) ∧
      List.Forall₂ (fun (p : Pol × ℕ) t' => FlippedAt p.1 t' p.2) (policies.zip d) a'.state ∧
      a'.state.length = policies.length ∧ (∀ t ∈ a'.state, IsPolicy t) ∧ a'.past = [] := by
  obtain ⟨s, hs, hf, hp⟩ := flips_spec policies d hd h
  refine ⟨{ init policies with state := s }, ?_, hf, ?_, hp, rfl⟩
  · rw [move_eq _ rfl]
    show (flips policies d).map _ = _
    rw [hs]; rfl
  · have h1 := hf.length_eq
    have h2 : policies.length = d.length := List.Forall₂.length_eq hd
    rw [List.length_zip, ← h2, Nat.min_self] at h1
    exact h1.symm

/-- A sequence of moves (annealer.py:64-89 called again and again). -/
def moves : ℕ → Annealer → List (List ℕ) → Option (Annealer × List (List ℕ))
  | 0, a, ds => some (a, ds)
  | n + 1, a, ds => (a.move ds).bind (fun r => moves n r.1 r.2)

/-- C40.  After any number of moves with any draws: same number of tensors, same shapes, 0/1 entries, and no bit at a
flat position beyond the first dimension has changed. -/
theorem C40_history (policies : List Pol) (h : ∀ t ∈ policies, IsPolicy t) (ds : List (List ℕ))
    (hds : ∀ d ∈ ds, ValidDraw policies d) (n : ℕ) (hn : n ≤ ds.length) :
    ∃ a', moves n (init policies) ds = some (a', ds.drop n) ∧ List.Forall₂ SameBeyond policies a'.state := by
  have gen : ∀ (n : ℕ) (a : Annealer) (ds : List (List ℕ)), Inv policies a → (∀ d ∈ ds, ValidDraw policies d) →
      n ≤ ds.length → ∃ a', moves n a ds = some (a', ds.drop n) ∧ Inv policies a' := by
    intro n
    induction n with
    | zero => intro a ds ha _ _; exact ⟨a, rfl, ha⟩
    | succ n ih =>
      intro a ds ha hds hn
      cases ds with
      | nil => simp at hn
      | cons d ds =>
        obtain ⟨a1, h1⟩ := move_total h ha (ds := ds) (hds d (by simp))
        obtain ⟨hi, hv, -⟩ := move_inv h ha hds h1
        obtain ⟨a2, h2, h3⟩ := ih a1 ds hi hv (by simpa using hn)
        exact ⟨a2, by simp [moves, h1, h2], h3⟩
  obtain ⟨a', h1, h2⟩ := gen n (init policies) ds ⟨rfl, Reach.refl h⟩ hds hn
  exact ⟨a', h1, h2.reach⟩

/-- C40, matrices.  In an `o × i` kernel policy the entry of row `r`, column `c` can only change if `r * i + c < o`. -/
theorem C40_matrix (o i : ℕ) (data : List ℕ) (rest : List Pol) (h : ∀ t ∈ Pol.mk [o, i] data :: rest, IsPolicy t)
    (ds : List (List ℕ)) (hds : ∀ d ∈ ds, ValidDraw (Pol.mk [o, i] data :: rest) d) (n : ℕ) (hn : n ≤ ds.length) :
    ∃ a' t ts, moves n (init (Pol.mk [o, i] data :: rest)) ds = some (a', ds.drop n) ∧ a'.state = t :: ts ∧
      t.shape = [o, i] ∧ ∀ r c, r < o → c < i → o ≤ r * i + c → t.data[r * i + c]? = data[r * i + c]? := by
  obtain ⟨a', h1, h2⟩ := C40_history _ h ds hds n hn
  obtain ⟨t, ts, ht, hts, hst⟩ := List.forall₂_cons_left_iff.mp h2
  exact ⟨a', t, ts, h1, hst, ht.1, fun r c _ _ hk => ht.2.2.2 _ hk⟩

/-- Non-trivial instance: a 2×3 kernel policy and a bias policy of 2; positions 2..5 of the kernel never change, 0 and 1
do. -/
def exPols : List Pol := [⟨[2, 3], [0, 1, 0, 1, 1, 0]⟩, ⟨[2], [1, 1]⟩]

instance (ts : List Pol) (d : List ℕ) : Decidable (ValidDraw ts d) := inferInstanceAs (Decidable (List.Forall₂ _ ts d))

example : (∀ d ∈ [[1, 0], [0, 0], [1, 1]], ValidDraw exPols d) ∧
    (moves 3 (init exPols) [[1, 0], [0, 0], [1, 1]]).map (fun r => r.1.state) =
      some [⟨[2, 3], [1, 1, 0, 1, 1, 0]⟩, ⟨[2], [1, 0]⟩] := by
  refine ⟨by decide, by decide⟩

example : ∀ t ∈ exPols, IsPolicy t := by
  intro t ht
  simp only [exPols, List.mem_cons, List.not_mem_nil, or_false] at ht
  rcases ht with rfl | rfl <;> refine ⟨by unfold Pol.WF; decide, by decide, by decide, by decide⟩

/-! ## C41 -/

section
variable {E : List Pol → ℚ} {s0 : List Pol}

/-- Invariant of the local search relative to its start. -/
structure SInv (E : List Pol → ℚ) (s0 b0 : List Pol) (e0 : ℚ) (s : Search) : Prop where
  inv : Inv s0 s.a
  bestReach : Reach s0 s.best
  le : s.bestE ≤ e0
  val : (s.best = b0 ∧ s.bestE = e0) ∨ (s.bestE = E s.best ∧ s.bestE < e0)

theorem searchStep_inv (h0 : ∀ t ∈ s0, IsPolicy t) {b0 : List Pol} {e0 : ℚ} {s s' : Search} {ds ds' : List (List ℕ)}
    (hs : SInv E s0 b0 e0 s) (hds : ∀ d ∈ ds, ValidDraw s0 d) (h : searchStep E s ds = some (s', ds')) :
    SInv E s0 b0 e0 s' ∧ (∀ d ∈ ds', ValidDraw s0 d) ∧ s'.bestE ≤ s.bestE ∧ ds'.length + 1 = ds.length ∧
      ((s'.best = s.best ∧ s'.bestE = s.bestE ∧ s'.stuck = s.stuck + 1) ∨
        (s'.stuck = 0 ∧ s'.bestE = E s'.best ∧ s'.bestE < s.bestE)) := by
  unfold searchStep at h
  simp only [Option.bind_eq_bind, Option.bind_eq_some_iff] at h
  obtain ⟨⟨a, ds1⟩, hm, h⟩ := h
  obtain ⟨hi, hv, hlen⟩ := move_inv h0 hs.inv hds hm
  simp only at h
  split_ifs at h with hlt
  · cases h
    refine ⟨⟨⟨rfl, hi.reach⟩, hi.reach, hlt.le.trans hs.le, .inr ⟨rfl, lt_of_lt_of_le hlt hs.le⟩⟩, hv, hlt.le, hlen,
      .inr ⟨rfl, rfl, hlt⟩⟩
  · cases h
    exact ⟨⟨⟨hi.past, hs.bestReach⟩, hs.bestReach, hs.le, hs.val⟩, hv, le_rfl, hlen, .inl ⟨rfl, rfl, rfl⟩⟩

theorem searchLoop_inv (h0 : ∀ t ∈ s0, IsPolicy t) {b0 : List Pol} {e0 : ℚ} (m fuel : ℕ) {s s' : Search}
    {ds : List (List ℕ)} (hs : SInv E s0 b0 e0 s) (hds : ∀ d ∈ ds, ValidDraw s0 d)
    (h : searchLoop E m fuel s ds = some s') : SInv E s0 b0 e0 s' ∧ m < s'.stuck := by
  induction fuel generalizing s ds with
  | zero => simp [searchLoop] at h
  | succ fuel ih =>
    unfold searchLoop at h
    simp only [Option.bind_eq_bind, Option.bind_eq_some_iff] at h
    obtain ⟨⟨s1, ds1⟩, hstep, h⟩ := h
    obtain ⟨hi, hv, -⟩ := searchStep_inv h0 hs hds hstep
    simp only at h
    split_ifs at h with hst
    · cases h; exact ⟨hi, hst⟩
    · exact ih hi hv h

end

/-- C41.  The greedy refinement never returns something worse than it started from: it returns the starting point with
its energy, or a strictly better policy with its own energy; shapes, 0/1 entries and unreachable positions are kept. -/
theorem C41_refinement (E : List Pol → ℚ) (policies : List Pol) (h : ∀ t ∈ policies, IsPolicy t) (maxRetries fuel : ℕ)
    (ds : List (List ℕ)) (hds : ∀ d ∈ ds, ValidDraw policies d) (neigh : List Pol) (e : ℚ)
    (hr : toMinima E maxRetries fuel (init policies) policies (E policies) ds = some (neigh, e)) :
    e = E neigh ∧ E neigh ≤ E policies ∧ (neigh ≠ policies → E neigh < E policies) ∧
      List.Forall₂ SameBeyond policies neigh := by
  unfold toMinima at hr
  rw [Option.map_eq_some_iff] at hr
  obtain ⟨s, hs, heq⟩ := hr
  cases heq
  obtain ⟨hi, -⟩ := searchLoop_inv (E := E) h maxRetries fuel (b0 := policies) (e0 := E policies)
    ⟨⟨rfl, Reach.refl h⟩, Reach.refl h, le_rfl, .inl ⟨rfl, rfl⟩⟩ hds hs
  rcases hi.val with ⟨h1, h2⟩ | ⟨h1, h2⟩
  · rw [h1] at *
    exact ⟨h2, le_rfl, fun hne => absurd rfl hne, Reach.refl h⟩
  · exact ⟨h1, h1 ▸ hi.le, fun _ => h1 ▸ h2, hi.bestReach⟩

section
variable {E : List Pol → ℚ} {s0 : List Pol}

structure AInv (E : List Pol → ℚ) (s0 : List Pol) (s : SA) : Prop where
  inv : Inv s0 s.a
  prevReach : Reach s0 s.prev
  bestReach : Reach s0 s.best
  le : s.bestE ≤ E s0
  val : s.bestE = E s.best

theorem saLoop_inv (h0 : ∀ t ∈ s0, IsPolicy t) (cs : List Bool) {s s' : SA} {ds ds' : List (List ℕ)}
    (hs : AInv E s0 s) (hds : ∀ d ∈ ds, ValidDraw s0 d) (h : saLoop E cs s ds = some (s', ds')) :
    AInv E s0 s' ∧ (∀ d ∈ ds', ValidDraw s0 d) := by
  induction cs generalizing s ds with
  | nil => simp only [saLoop, Option.some.injEq, Prod.mk.injEq] at h; obtain ⟨rfl, rfl⟩ := h; exact ⟨hs, hds⟩
  | cons c cs ih =>
    unfold saLoop at h
    simp only [Option.bind_eq_bind, Option.bind_eq_some_iff] at h
    obtain ⟨⟨s1, ds1⟩, hstep, h⟩ := h
    unfold saStep at hstep
    simp only [Option.bind_eq_bind, Option.bind_eq_some_iff] at hstep
    obtain ⟨⟨a, ds2⟩, hm, hstep⟩ := hstep
    obtain ⟨hi, hv, -⟩ := move_inv h0 hs.inv hds hm
    simp only at hstep h
    split_ifs at hstep with h1 h2
    · cases hstep
      refine ih (s := { s with a := { a with state := s.prev } }) ?_ hv h
      exact ⟨⟨hi.past, hs.prevReach⟩, hs.prevReach, hs.bestReach, hs.le, hs.val⟩
    · cases hstep
      exact ih ⟨hi, hi.reach, hi.reach, h2.le.trans hs.le, rfl⟩ hv h
    · cases hstep
      refine ih (s := { s with a := a, prev := a.state, prevE := E a.state }) ?_ hv h
      exact ⟨hi, hi.reach, hs.bestReach, hs.le, hs.val⟩

end

theorem zipWith_snd_drop (a b : List Pol) (h : a.length = b.length) :
    List.zipWith (fun _ p => p) a b ++ a.drop b.length = b := by
  rw [← h, List.drop_length, List.append_nil]
  induction a generalizing b with
  | nil => cases b with
    | nil => rfl
    | cons => simp at h
  | cons x a ih => cases b with
    | nil => simp at h
    | cons y b => simp [ih b (by simpa using h)]

/-- C41.  AdaRound with the annealer: for every energy function with non-zero values, every outcome of the random
numbers and every acceptance decision, the policies written to the tensors are not worse than the initial ones, the
returned cost is their energy, and shapes, 0/1 entries and unreachable positions are kept. -/
theorem C41_never_worse (E : List Pol → ℚ) (policies : List Pol) (h : ∀ t ∈ policies, IsPolicy t) (maxRetries fuel : ℕ)
    (accepts : List Bool) (ds : List (List ℕ)) (hds : ∀ d ∈ ds, ValidDraw policies d)
    (hE : ∀ s, List.Forall₂ SameBeyond policies s → E s ≠ 0) (final : List Pol) (cost : ℚ)
    (hr : adaround E maxRetries fuel policies accepts ds = some (final, cost)) :
    cost = E final ∧ E final ≤ E policies ∧ List.Forall₂ SameBeyond policies final := by
  unfold adaround anneal at hr
  rw [Option.map_eq_some_iff] at hr
  obtain ⟨⟨neigh, e⟩, hr, heq⟩ := hr
  simp only [Option.bind_eq_bind, Option.bind_eq_some_iff] at hr
  obtain ⟨⟨s, ds'⟩, hsa, hr⟩ := hr
  obtain ⟨ha, hv⟩ := saLoop_inv (E := E) (s0 := policies) h accepts
    (s := { a := init policies, prev := policies, prevE := E policies, best := policies, bestE := E policies })
    ⟨⟨rfl, Reach.refl h⟩, Reach.refl h, Reach.refl h, le_rfl, rfl⟩ hds hsa
  simp only at hr
  have hne : s.bestE ≠ 0 := by rw [ha.val]; exact hE _ ha.bestReach
  rw [if_neg hne] at hr
  unfold toMinima at hr
  rw [Option.map_eq_some_iff] at hr
  obtain ⟨t, ht, heq2⟩ := hr
  simp only [Prod.mk.injEq] at heq2
  obtain ⟨rfl, rfl⟩ := heq2
  obtain ⟨hi, -⟩ := searchLoop_inv (E := E) h maxRetries fuel (b0 := s.best) (e0 := s.bestE)
    (s := { a := { s.a with state := s.best }, best := s.best, bestE := s.bestE, stuck := 0 })
    ⟨⟨ha.inv.past, ha.bestReach⟩, ha.bestReach, le_rfl, .inl ⟨rfl, rfl⟩⟩ hv ht
  have hlen : policies.length = t.best.length := List.Forall₂.length_eq hi.bestReach
  rw [zipWith_snd_drop _ _ hlen] at heq
  cases heq
  have hval : t.bestE = E t.best := by
    rcases hi.val with ⟨h1, h2⟩ | ⟨h1, -⟩
    · rw [h2, h1]; exact ha.val
    · exact h1
  exact ⟨hval, hval ▸ (hi.le.trans ha.le), hi.bestReach⟩

/-- The hypothesis on `E` and the run itself are met by a concrete case: energy = 1 + number of ones, two bits. -/
example : (adaround (fun s => 1 + ((s.map (fun t => (t.data.sum : ℚ))).sum)) 1 10 [⟨[2], [1, 1]⟩] [true, false]
      [[0], [0], [1], [0], [0], [0]]) = some ([⟨[2], [0, 0]⟩], 1) := by
  decide +kernel

/-- C41.  Whatever the energy, also when it is zero somewhere: the returned policies have the shapes of the initial
ones, contain only 0 and 1, and differ from them only in the first `len` entries. -/
theorem C41_returns_policies (E : List Pol → ℚ) (policies : List Pol) (h : ∀ t ∈ policies, IsPolicy t)
    (maxRetries fuel : ℕ) (accepts : List Bool) (ds : List (List ℕ)) (hds : ∀ d ∈ ds, ValidDraw policies d)
    (final : List Pol) (cost : ℚ) (hr : adaround E maxRetries fuel policies accepts ds = some (final, cost)) :
    List.Forall₂ SameBeyond policies final := by
  unfold adaround anneal at hr
  rw [Option.map_eq_some_iff] at hr
  obtain ⟨⟨neigh, e⟩, hr, heq⟩ := hr
  simp only [Option.bind_eq_bind, Option.bind_eq_some_iff] at hr
  obtain ⟨⟨s, ds'⟩, hsa, hr⟩ := hr
  obtain ⟨ha, hv⟩ := saLoop_inv (E := E) (s0 := policies) h accepts
    (s := { a := init policies, prev := policies, prevE := E policies, best := policies, bestE := E policies })
    ⟨⟨rfl, Reach.refl h⟩, Reach.refl h, Reach.refl h, le_rfl, rfl⟩ hds hsa
  simp only at hr
  unfold toMinima at hr
  rw [Option.map_eq_some_iff] at hr
  obtain ⟨t, ht, heq2⟩ := hr
  simp only [Prod.mk.injEq] at heq2
  obtain ⟨rfl, rfl⟩ := heq2
  obtain ⟨hi, -⟩ := searchLoop_inv (E := E) h maxRetries fuel (b0 := s.best)
    (e0 := if s.bestE = 0 then sysMaxsize else s.bestE)
    (s := { a := { s.a with state := s.best }, best := s.best, bestE := if s.bestE = 0 then sysMaxsize else s.bestE,
            stuck := 0 })
    ⟨⟨ha.inv.past, ha.bestReach⟩, ha.bestReach, le_rfl, .inl ⟨rfl, rfl⟩⟩ hv ht
  have hlen : policies.length = t.best.length := List.Forall₂.length_eq hi.bestReach
  rw [zipWith_snd_drop _ _ hlen] at heq
  cases heq
  exact hi.bestReach

/-- C41, the exception: when the annealer has reached energy exactly 0, `energy or sys.maxsize` restarts the refinement
from energy `2^63 - 1`, and the returned policies can be strictly worse than the initial ones. -/
theorem C41_zero_energy_is_lost :
    ∃ (E : List Pol → ℚ) (policies : List Pol) (ds : List (List ℕ)) (final : List Pol),
      (∀ s, 0 ≤ E s) ∧ (∀ d ∈ ds, ValidDraw policies d) ∧ E policies = 0 ∧
      adaround E 2 10 policies [] ds = some (final, E final) ∧ E final = 5 := by
  refine ⟨fun s => if s = [⟨[2], [0, 0]⟩] then 0 else if s = [⟨[2], [1, 1]⟩] then 7 else 5,
    [⟨[2], [0, 0]⟩], [[0], [1], [1], [1]], [⟨[2], [1, 0]⟩], ?_, by decide, by decide +kernel, by decide +kernel,
    by decide +kernel⟩
  intro s
  beta_reduce
  split_ifs <;> norm_num

/-- C41 without any assumption on the energy: either the returned cost is the energy of the returned policies and not
above the initial energy, or a state of energy exactly 0 was met and forgotten; then the returned policies have an energy
below `2^63 - 1` that is reported, or they are the energy 0 ones and `2^63 - 1` is reported instead of 0. -/
theorem C41_any_energy (E : List Pol → ℚ) (policies : List Pol) (h : ∀ t ∈ policies, IsPolicy t)
    (maxRetries fuel : ℕ) (accepts : List Bool) (ds : List (List ℕ)) (hds : ∀ d ∈ ds, ValidDraw policies d)
    (final : List Pol) (cost : ℚ) (hr : adaround E maxRetries fuel policies accepts ds = some (final, cost)) :
    (cost = E final ∧ E final ≤ E policies) ∨
      ((∃ s, List.Forall₂ SameBeyond policies s ∧ E s = 0) ∧ 0 ≤ E policies ∧
        ((cost = E final ∧ E final < 2 ^ 63 - 1) ∨ (cost = 2 ^ 63 - 1 ∧ E final = 0))) := by
  unfold adaround anneal at hr
  rw [Option.map_eq_some_iff] at hr
  obtain ⟨⟨neigh, e⟩, hr, heq⟩ := hr
  simp only [Option.bind_eq_bind, Option.bind_eq_some_iff] at hr
  obtain ⟨⟨s, ds'⟩, hsa, hr⟩ := hr
  obtain ⟨ha, hv⟩ := saLoop_inv (E := E) (s0 := policies) h accepts
    (s := { a := init policies, prev := policies, prevE := E policies, best := policies, bestE := E policies })
    ⟨⟨rfl, Reach.refl h⟩, Reach.refl h, Reach.refl h, le_rfl, rfl⟩ hds hsa
  simp only at hr
  unfold toMinima at hr
  rw [Option.map_eq_some_iff] at hr
  obtain ⟨t, ht, heq2⟩ := hr
  simp only [Prod.mk.injEq] at heq2
  obtain ⟨rfl, rfl⟩ := heq2
  obtain ⟨hi, -⟩ := searchLoop_inv (E := E) h maxRetries fuel (b0 := s.best)
    (e0 := if s.bestE = 0 then sysMaxsize else s.bestE)
    (s := { a := { s.a with state := s.best }, best := s.best, bestE := if s.bestE = 0 then sysMaxsize else s.bestE,
            stuck := 0 })
    ⟨⟨ha.inv.past, ha.bestReach⟩, ha.bestReach, le_rfl, .inl ⟨rfl, rfl⟩⟩ hv ht
  have hlen : policies.length = t.best.length := List.Forall₂.length_eq hi.bestReach
  rw [zipWith_snd_drop _ _ hlen] at heq
  cases heq
  by_cases hz : s.bestE = 0
  · refine .inr ⟨⟨s.best, ha.bestReach, ha.val ▸ hz⟩, hz ▸ ha.le, ?_⟩
    have hv := hi.val
    rw [if_pos hz] at hv
    rcases hv with ⟨h1, h2⟩ | ⟨h1, h2⟩
    · exact .inr ⟨h2, by rw [h1, ← ha.val, hz]⟩
    · exact .inl ⟨h1, h1 ▸ h2⟩
  · left
    have hv := hi.val
    have hle := hi.le
    rw [if_neg hz] at hv hle
    have hval : t.bestE = E t.best := by
      rcases hv with ⟨h1, h2⟩ | ⟨h1, -⟩
      · rw [h2, h1]; exact ha.val
      · exact h1
    exact ⟨hval, hval ▸ (hle.trans ha.le)⟩

/-- C41 for energies that are never positive, like minus a number of hits: the forgotten energy 0 is then the worst one there
is, and the returned policies are not worse than the initial ones either. -/
theorem C41_never_worse_nonpositive (E : List Pol → ℚ) (policies : List Pol) (h : ∀ t ∈ policies, IsPolicy t)
    (maxRetries fuel : ℕ) (accepts : List Bool) (ds : List (List ℕ)) (hds : ∀ d ∈ ds, ValidDraw policies d)
    (hE : ∀ s, List.Forall₂ SameBeyond policies s → E s ≤ 0) (final : List Pol) (cost : ℚ)
    (hr : adaround E maxRetries fuel policies accepts ds = some (final, cost)) : E final ≤ E policies := by
  rcases C41_any_energy E policies h maxRetries fuel accepts ds hds final cost hr with ⟨-, h1⟩ | ⟨-, h1, -⟩
  · exact h1
  · exact (hE _ (C41_returns_policies E policies h maxRetries fuel accepts ds hds final cost hr)).trans h1

/-- Both exceptional cases happen: the first in `C41_zero_energy_is_lost`, the second when every neighbour costs more
than `2^63 - 1`. -/
example : adaround (fun s => if s = [⟨[2], [0, 0]⟩] then 0 else 2 ^ 64) 0 3 [⟨[2], [0, 0]⟩] [] [[0], [1]] =
    some ([⟨[2], [0, 0]⟩], 2 ^ 63 - 1) := by
  decide +kernel

/-! ### Termination of the refinement -/

/-- The states reachable from given policies form a finite set. -/
theorem reach_finite (s0 : List Pol) : {s | Reach s0 s}.Finite := by
  induction s0 with
  | nil =>
    refine Set.Finite.subset (Set.finite_singleton []) ?_
    intro s hs
    cases hs
    rfl
  | cons t s0 ih =>
    have hfin : {t' | SameBeyond t t'}.Finite := by
      have hl : {l : List ℕ | l.length = t.data.length ∧ ∀ b ∈ l, b ∈ ({0, 1} : Set ℕ)}.Finite := by
        have : Finite ({0, 1} : Set ℕ) := Set.Finite.to_subtype (by simp)
        have hf := List.finite_length_eq ({0, 1} : Set ℕ) t.data.length
        refine Set.Finite.subset (hf.image (fun l => l.map Subtype.val)) ?_
        rintro l ⟨h1, h2⟩
        refine ⟨l.pmap (fun b hb => ⟨b, hb⟩) h2, by simp [h1], ?_⟩
        simp [List.map_pmap]
      refine Set.Finite.subset (hl.image (fun l => Pol.mk t.shape l)) ?_
      intro t' ht'
      refine ⟨t'.data, ⟨ht'.2.1, fun b hb => ?_⟩, ?_⟩
      · rcases ht'.2.2.1 b hb with h | h <;> simp [h]
      · rw [← ht'.1]
    refine Set.Finite.subset ((hfin.prod ih).image (fun p => p.1 :: p.2)) ?_
    intro s hs
    cases hs with
    | @cons _ t' _ s' ht hs => exact ⟨(t', s'), ⟨ht, hs⟩, rfl⟩

theorem searchLoop_terminates (E : List Pol → ℚ) (policies : List Pol) (h : ∀ t ∈ policies, IsPolicy t)
    (maxRetries : ℕ) (draw : ℕ → List ℕ) (hd : ∀ n, ValidDraw policies (draw n)) (s : Search) (hi : Inv policies s.a)
    (hb : Reach policies s.best) (hst : s.stuck ≤ maxRetries) (n0 : ℕ) :
    ∃ fuel, ∃ r, ∀ extra : List (List ℕ),
      searchLoop E maxRetries fuel s ((List.range fuel).map (fun n => draw (n0 + n)) ++ extra) = some r := by
  classical
  have hfin := reach_finite policies
  -- general statement, by well-founded induction on (states below the best energy, retries left)
  have gen : ∀ (c : ℕ) (k : ℕ) (s : Search), Inv policies s.a → Reach policies s.best →
      (hfin.toFinset.filter (fun t => E t < s.bestE)).card ≤ c → maxRetries + 1 - s.stuck ≤ k → s.stuck ≤ maxRetries →
      ∀ n0 : ℕ, ∃ fuel, ∃ r, ∀ extra : List (List ℕ),
        searchLoop E maxRetries fuel s ((List.range fuel).map (fun n => draw (n0 + n)) ++ extra) = some r := by
    intro c
    induction c with
    | zero =>
      intro k
      induction k with
      | zero => intro s _ _ _ hk hst; omega
      | succ k ihk =>
        intro s hi hb hc hk hst n0
        obtain ⟨a', ha'⟩ : ∃ a', ∀ ds, s.a.move (draw n0 :: ds) = some (a', ds) := by
          obtain ⟨st, hs, -⟩ := flips_spec s.a.state (draw n0) (hi.reach.validDraw (hd n0)) (hi.reach.isPolicy h)
          exact ⟨{ s.a with state := st }, fun ds => by rw [move_eq s.a hi.past, hs]; rfl⟩
        obtain ⟨hi', -, -⟩ := move_inv h hi (ds := [draw n0]) (by simp [hd]) (ha' [])
        have hno : ¬ E a'.state < s.bestE := by
          intro hlt
          have : a'.state ∈ hfin.toFinset.filter (fun t => E t < s.bestE) := by
            rw [Finset.mem_filter, Set.Finite.mem_toFinset]; exact ⟨hi'.reach, hlt⟩
          have := Finset.card_pos.mpr ⟨_, this⟩
          omega
        by_cases hend : maxRetries < s.stuck + 1
        · refine ⟨1, { s with a := { a' with state := s.best }, stuck := s.stuck + 1 }, fun extra => ?_⟩
          simp only [searchLoop, searchStep, List.range_one, List.map_cons, List.map_nil, Nat.add_zero, List.cons_append,
            List.nil_append, ha', Option.bind_eq_bind, Option.bind_some, if_neg hno, if_pos hend]
        · obtain ⟨fuel, r, hr⟩ := ihk { s with a := { a' with state := s.best }, stuck := s.stuck + 1 }
            ⟨hi'.past, hb⟩ hb hc (by simp only; omega) (by simp only; omega) (n0 + 1)
          refine ⟨fuel + 1, r, fun extra => ?_⟩
          rw [List.range_succ_eq_map, List.map_cons, List.map_map, List.cons_append]
          have hmap : List.map ((fun n => draw (n0 + n)) ∘ Nat.succ) (List.range fuel) =
              List.map (fun n => draw (n0 + 1 + n)) (List.range fuel) := by
            apply List.map_congr_left; intro n _; simp only [Function.comp]; congr 1; omega
          rw [hmap]
          simp only [searchLoop, searchStep, Nat.add_zero, ha', Option.bind_eq_bind, Option.bind_some, if_neg hno,
            if_neg hend]
          exact hr extra
    | succ c ihc =>
      intro k
      induction k with
      | zero => intro s _ _ _ hk hst; omega
      | succ k ihk =>
        intro s hi hb hc hk hst n0
        obtain ⟨a', ha'⟩ : ∃ a', ∀ ds, s.a.move (draw n0 :: ds) = some (a', ds) := by
          obtain ⟨st, hs, -⟩ := flips_spec s.a.state (draw n0) (hi.reach.validDraw (hd n0)) (hi.reach.isPolicy h)
          exact ⟨{ s.a with state := st }, fun ds => by rw [move_eq s.a hi.past, hs]; rfl⟩
        obtain ⟨hi', -, -⟩ := move_inv h hi (ds := [draw n0]) (by simp [hd]) (ha' [])
        have hmap : ∀ fuel, List.map ((fun n => draw (n0 + n)) ∘ Nat.succ) (List.range fuel) =
            List.map (fun n => draw (n0 + 1 + n)) (List.range fuel) := by
          intro fuel
          apply List.map_congr_left; intro n _; simp only [Function.comp]; congr 1; omega
        by_cases hlt : E a'.state < s.bestE
        · have hcard : (hfin.toFinset.filter (fun t => E t < E a'.state)).card ≤ c := by
            have hss : hfin.toFinset.filter (fun t => E t < E a'.state) ⊂ hfin.toFinset.filter (fun t => E t < s.bestE) := by
              refine Finset.ssubset_iff_subset_ne.mpr ⟨?_, ?_⟩
              · intro t ht
                rw [Finset.mem_filter] at ht ⊢
                exact ⟨ht.1, ht.2.trans hlt⟩
              · intro heq
                have : a'.state ∈ hfin.toFinset.filter (fun t => E t < s.bestE) := by
                  rw [Finset.mem_filter, Set.Finite.mem_toFinset]; exact ⟨hi'.reach, hlt⟩
                rw [← heq, Finset.mem_filter] at this
                exact lt_irrefl _ this.2
            have := Finset.card_lt_card hss
            omega
          obtain ⟨fuel, r, hr⟩ := ihc (maxRetries + 1)
            { a := { a' with past := [] }, best := a'.state, bestE := E a'.state, stuck := 0 }
            ⟨rfl, hi'.reach⟩ hi'.reach hcard (by simp) (by simp) (n0 + 1)
          refine ⟨fuel + 1, r, fun extra => ?_⟩
          rw [List.range_succ_eq_map, List.map_cons, List.map_map, List.cons_append, hmap]
          simp only [searchLoop, searchStep, Nat.add_zero, ha', Option.bind_eq_bind, Option.bind_some, if_pos hlt,
            Nat.not_lt_zero, if_false]
          exact hr extra
        · by_cases hend : maxRetries < s.stuck + 1
          · refine ⟨1, { s with a := { a' with state := s.best }, stuck := s.stuck + 1 }, fun extra => ?_⟩
            simp only [searchLoop, searchStep, List.range_one, List.map_cons, List.map_nil, Nat.add_zero, List.cons_append,
              List.nil_append, ha', Option.bind_eq_bind, Option.bind_some, if_neg hlt, if_pos hend]
          · obtain ⟨fuel, r, hr⟩ := ihk { s with a := { a' with state := s.best }, stuck := s.stuck + 1 }
              ⟨hi'.past, hb⟩ hb hc (by simp only; omega) (by simp only; omega) (n0 + 1)
            refine ⟨fuel + 1, r, fun extra => ?_⟩
            rw [List.range_succ_eq_map, List.map_cons, List.map_map, List.cons_append, hmap]
            simp only [searchLoop, searchStep, Nat.add_zero, ha', Option.bind_eq_bind, Option.bind_some, if_neg hlt,
              if_neg hend]
            exact hr extra
  exact gen _ (maxRetries + 1) s hi hb le_rfl (by omega) hst n0

/-- C41.  The refinement terminates: for every infinite supply of valid random tuples there is a number of iterations
after which the loop has ended (improvements are strictly decreasing energies of finitely many states, and between two
improvements at most `max_retries` failures are allowed). -/
theorem C41_terminates (E : List Pol → ℚ) (policies : List Pol) (h : ∀ t ∈ policies, IsPolicy t) (maxRetries : ℕ)
    (draw : ℕ → List ℕ) (hd : ∀ n, ValidDraw policies (draw n)) (e0 : ℚ) :
    ∃ fuel, ∃ r, toMinima E maxRetries fuel (init policies) policies e0 ((List.range fuel).map draw) = some r := by
  obtain ⟨fuel, r, hr⟩ := searchLoop_terminates E policies h maxRetries draw hd
    { a := init policies, best := policies, bestE := e0, stuck := 0 } ⟨rfl, Reach.refl h⟩ (Reach.refl h) (by simp) 0
  refine ⟨fuel, (r.best, r.bestE), ?_⟩
  have := hr []
  simp only [List.append_nil, Nat.zero_add] at this
  unfold toMinima
  rw [this]; rfl

theorem saLoop_total (E : List Pol → ℚ) (policies : List Pol) (h : ∀ t ∈ policies, IsPolicy t) (cs : List Bool)
    (draw : ℕ → List ℕ) (hd : ∀ n, ValidDraw policies (draw n)) (s : SA) (hs : AInv E policies s) (n0 : ℕ) :
    ∃ s', AInv E policies s' ∧ ∀ extra : List (List ℕ),
      saLoop E cs s ((List.range cs.length).map (fun n => draw (n0 + n)) ++ extra) = some (s', extra) := by
  induction cs generalizing s n0 with
  | nil => exact ⟨s, hs, fun extra => rfl⟩
  | cons c cs ih =>
    have hmv : ∃ a', ∀ ds, s.a.move (draw n0 :: ds) = some (a', ds) := by
      obtain ⟨st, hs', -⟩ := flips_spec s.a.state (draw n0) (hs.inv.reach.validDraw (hd n0)) (hs.inv.reach.isPolicy h)
      exact ⟨{ s.a with state := st }, fun ds => by rw [move_eq s.a hs.inv.past, hs']; rfl⟩
    obtain ⟨a', ha'⟩ := hmv
    obtain ⟨s1, h1⟩ : ∃ s1, ∀ ds, saStep E c s (draw n0 :: ds) = some (s1, ds) := by
      by_cases c1 : s.prevE < E a'.state ∧ c = false
      · refine ⟨{ s with a := { a' with state := s.prev } }, fun ds => ?_⟩
        simp only [saStep, ha', Option.bind_eq_bind, Option.bind_some, if_pos c1]
      · by_cases c2 : E a'.state < s.bestE
        · refine ⟨{ a := a', prev := a'.state, prevE := E a'.state, best := a'.state, bestE := E a'.state }, fun ds => ?_⟩
          simp only [saStep, ha', Option.bind_eq_bind, Option.bind_some, if_neg c1, if_pos c2]
        · refine ⟨{ s with a := a', prev := a'.state, prevE := E a'.state }, fun ds => ?_⟩
          simp only [saStep, ha', Option.bind_eq_bind, Option.bind_some, if_neg c1, if_neg c2]
    have hinv : AInv E policies s1 := by
      have hl : saLoop E [c] s [draw n0] = some (s1, []) := by simp [saLoop, h1]
      exact (saLoop_inv h [c] hs (by simp [hd]) hl).1
    obtain ⟨s', hs', h2⟩ := ih s1 hinv (n0 + 1)
    refine ⟨s', hs', fun extra => ?_⟩
    have hmap : List.map ((fun n => draw (n0 + n)) ∘ Nat.succ) (List.range cs.length) =
        List.map (fun n => draw (n0 + 1 + n)) (List.range cs.length) := by
      apply List.map_congr_left; intro n _; simp only [Function.comp]; congr 1; omega
    rw [List.length_cons, List.range_succ_eq_map, List.map_cons, List.map_map, List.cons_append, hmap]
    simp only [saLoop, Nat.add_zero, h1, Option.bind_eq_bind, Option.bind_some]
    exact h2 extra

/-- C41.  AdaRound with the annealer always returns, for every number of annealing steps, every acceptance decision and
every supply of valid random tuples. -/
theorem C41_adaround_terminates (E : List Pol → ℚ) (policies : List Pol) (h : ∀ t ∈ policies, IsPolicy t)
    (maxRetries : ℕ) (accepts : List Bool) (draw : ℕ → List ℕ) (hd : ∀ n, ValidDraw policies (draw n)) :
    ∃ fuel, ∃ r, adaround E maxRetries fuel policies accepts ((List.range (accepts.length + fuel)).map draw) = some r := by
  obtain ⟨s, hs, h1⟩ := saLoop_total E policies h accepts draw hd
    { a := init policies, prev := policies, prevE := E policies, best := policies, bestE := E policies }
    ⟨⟨rfl, Reach.refl h⟩, Reach.refl h, Reach.refl h, le_rfl, rfl⟩ 0
  obtain ⟨fuel, r, h2⟩ := searchLoop_terminates E policies h maxRetries draw hd
    { a := { s.a with state := s.best }, best := s.best, bestE := if s.bestE = 0 then sysMaxsize else s.bestE, stuck := 0 }
    ⟨hs.inv.past, hs.bestReach⟩ hs.bestReach (by simp) accepts.length
  refine ⟨fuel, (List.zipWith (fun _ p => p) policies r.best ++ policies.drop r.best.length, r.bestE), ?_⟩
  have e : (List.range (accepts.length + fuel)).map draw =
      (List.range accepts.length).map (fun n => draw (0 + n)) ++ (List.range fuel).map (fun n => draw (accepts.length + n)) := by
    rw [List.range_add, List.map_append, List.map_map]; simp [Function.comp]
  have h2' := h2 []
  rw [List.append_nil] at h2'
  unfold adaround anneal
  have h1' := h1 ((List.range fuel).map (fun n => draw (accepts.length + n)))
  rw [e]
  simp only [show (init policies).state = policies from rfl, h1', Option.bind_eq_bind, Option.bind_some]
  unfold toMinima
  rw [h2']; rfl

example : ∀ n : ℕ, ValidDraw exPols [n % 2, 0] := by
  intro n
  exact .cons (Nat.mod_lt _ (by decide)) (.cons (by decide) .nil)

end Verif
