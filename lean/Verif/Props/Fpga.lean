import Verif.Model.Fpga
import Mathlib.Tactic.Linarith
import Mathlib.Tactic.Ring
import Mathlib.Algebra.BigOperators.Group.List.Basic

/-!
# C50, C51: the FPGA client's batching and its matching of answers to requests
-/

namespace Verif
open Fpga

namespace Fpga

theorem take_drop_flatten {α : Type} (x : List α) (start : ℕ → ℕ) (h0 : start 0 = 0) (hm : ∀ i, start i ≤ start (i + 1)) :
    ∀ n, ((List.range n).map (fun i => (x.drop (start i)).take (start (i + 1) - start i))).flatten = x.take (start n)
  | 0 => by simp [h0]
  | n + 1 => by
    rw [List.range_succ, List.map_append, List.flatten_append, take_drop_flatten x start h0 hm n]
    simp only [List.map_cons, List.map_nil, List.flatten_cons, List.flatten_nil, List.append_nil]
    have := hm n
    rw [show start (n + 1) = start n + (start (n + 1) - start n) by omega, List.take_add]
    congr 2
    omega

end Fpga

/-- C50 (completeness and order).  Whenever a batch is split, the chunks concatenated in order are the batch. -/
theorem C50_nothing_lost {α : Type} (x : List α) (m : ℕ) (cs : List (List α)) (h : split x m = some cs) :
    cs.flatten = x := by
  unfold split at h
  split_ifs at h with hm
  unfold arraySplit at h
  split_ifs at h with hn
  injection h with h
  obtain ⟨n, hnd⟩ : ∃ n, n = x.length / m := ⟨_, rfl⟩
  rw [← hnd] at hn h
  obtain ⟨each, he⟩ : ∃ e, e = x.length / n := ⟨_, rfl⟩
  obtain ⟨extras, hx⟩ : ∃ e, e = x.length % n := ⟨_, rfl⟩
  simp only [← he, ← hx] at h
  have hstart : ∀ i, (i + 1) * each + min (i + 1) extras - (i * each + min i extras) =
      each + if i < extras then 1 else 0 := by
    intro i
    have : (i + 1) * each = i * each + each := by ring
    rw [this]
    split_ifs <;> omega
  have key := take_drop_flatten x (fun i => i * each + min i extras) (by simp)
    (fun i => by
      have : (i + 1) * each = i * each + each := by ring
      simp only [this]; omega) n
  simp only [hstart] at key
  rw [← h, key]
  have hlt : extras < n := by rw [hx]; exact Nat.mod_lt _ (by omega)
  have : n * each + min n extras = x.length := by
    rw [Nat.min_eq_right (by omega), he, hx]
    exact Nat.div_add_mod _ _
  rw [this, List.take_length]

/-- C50 (when it works).  The split succeeds exactly when the configured maximum is positive and the batch has at least
that many rows; in particular every smaller batch makes the call fail. -/
theorem C50_succeeds_iff {α : Type} (x : List α) (m : ℕ) : (split x m).isSome ↔ 0 < m ∧ m ≤ x.length := by
  unfold split arraySplit
  by_cases hm : m = 0
  · simp [hm]
  · rw [if_neg hm]
    have : x.length / m = 0 ↔ x.length < m := by
      rw [Nat.div_eq_zero_iff]; omega
    by_cases hn : x.length / m = 0
    · rw [if_pos hn]
      simp only [Option.isSome_none, Bool.false_eq_true, false_iff]
      have := this.mp hn; omega
    · rw [if_neg hn]
      simp only [Option.isSome_some, true_iff]
      have : ¬ x.length < m := fun h => hn (this.mpr h)
      omega

/-- C50 (chunk sizes).  The number of messages is `rows / maximum` rounded down, and every message has at least as many
rows as the configured *maximum* and fewer than twice as many; all have exactly the maximum iff it divides the batch. -/
theorem C50_chunk_sizes {α : Type} (x : List α) (m : ℕ) (cs : List (List α)) (h : split x m = some cs) :
    cs.length = x.length / m ∧ (∀ c ∈ cs, m ≤ c.length ∧ c.length < 2 * m) ∧
      ((∀ c ∈ cs, c.length = m) ↔ m ∣ x.length) := by
  have hok := (C50_succeeds_iff x m).mp (by rw [h]; rfl)
  have hflat := C50_nothing_lost x m cs h
  unfold split at h
  rw [if_neg (by omega)] at h
  unfold arraySplit at h
  split_ifs at h with hn
  injection h with h
  obtain ⟨n, hnd⟩ : ∃ n, n = x.length / m := ⟨_, rfl⟩
  rw [← hnd] at hn h
  obtain ⟨each, he⟩ : ∃ e, e = x.length / n := ⟨_, rfl⟩
  obtain ⟨extras, hx⟩ : ∃ e, e = x.length % n := ⟨_, rfl⟩
  simp only [← he, ← hx] at h
  have hdm : n * each + extras = x.length := by rw [he, hx]; exact Nat.div_add_mod _ _
  have hlt : extras < n := by rw [hx]; exact Nat.mod_lt _ (by omega)
  have hnm : n * m ≤ x.length := by rw [hnd]; exact Nat.div_mul_le_self _ _
  have hnm' : x.length < n * m + m := by
    have := Nat.lt_div_mul_add (a := x.length) (b := m) (by omega)
    rw [hnd]; exact this
  have heach : m ≤ each := by
    rw [he]
    exact (Nat.le_div_iff_mul_le (by omega)).mpr (by rw [mul_comm]; exact hnm)
  have hupper : each + (if 0 < extras then 1 else 0) < 2 * m := by
    -- n * each + extras < (n+1) * m
    have h1 : n * (each - m) + extras < m := by
      have : n * each = n * (each - m) + n * m := by rw [← Nat.mul_add]; congr 1; omega
      omega
    have h2 : each - m ≤ n * (each - m) := Nat.le_mul_of_pos_left _ (by omega)
    split_ifs <;> omega
  have hsize : ∀ i < n, ((x.drop (i * each + min i extras)).take (each + if i < extras then 1 else 0)).length =
      each + if i < extras then 1 else 0 := by
    intro i hi
    rw [List.length_take, List.length_drop, Nat.min_eq_left]
    have h1 : (i + 1) * each ≤ n * each := Nat.mul_le_mul_right _ (by omega)
    have h2 : (i + 1) * each = i * each + each := by ring
    split_ifs <;> omega
  have hmem : ∀ c ∈ cs, ∃ i < n, c.length = each + if i < extras then 1 else 0 := by
    intro c hc
    rw [← h] at hc
    obtain ⟨i, hi, rfl⟩ := List.mem_map.mp hc
    exact ⟨i, List.mem_range.mp hi, hsize i (List.mem_range.mp hi)⟩
  refine ⟨by rw [← h, ← hnd]; simp, ?_, ?_, ?_⟩
  · intro c hc
    obtain ⟨i, hi, hl⟩ := hmem c hc
    rw [hl]
    constructor
    · omega
    · refine lt_of_le_of_lt (Nat.add_le_add_left ?_ each) hupper
      by_cases h1 : i < extras
      · rw [if_pos h1, if_pos (by omega)]
      · rw [if_neg h1]; exact Nat.zero_le _
  · intro hall
    have : cs.flatten.length = n * m := by
      rw [List.length_flatten]
      have : cs.map List.length = List.replicate n m := by
        rw [List.eq_replicate_iff]
        refine ⟨by rw [← h]; simp, ?_⟩
        intro b hb
        obtain ⟨c, hc, rfl⟩ := List.mem_map.mp hb
        exact hall c hc
      rw [this, List.sum_replicate]; try rfl
    rw [hflat] at this
    exact ⟨n, by rw [this, mul_comm]⟩
  · rintro ⟨k, hk⟩ c hc
    obtain ⟨i, hi, hl⟩ := hmem c hc
    have hnk : n = k := by rw [hnd, hk]; exact Nat.mul_div_cancel_left _ (by omega)
    have h1 : x.length = n * m := by rw [hk, hnk, mul_comm]
    have h2 : each = m := by
      rw [he, h1]; exact Nat.mul_div_cancel_left _ (by omega)
    have h3 : extras = 0 := by rw [hx, h1]; exact Nat.mul_mod_right _ _
    rw [hl, h2, h3]; simp

/-- The bounds are attained: with maximum 4, a batch of 7 rows goes out as one message of 7 rows, one of 3 fails. -/
example : split (List.range 7) 4 = some [[0, 1, 2, 3, 4, 5, 6]] ∧ split (List.range 3) 4 = none ∧
    split (List.range 11) 4 = some [[0, 1, 2, 3, 4, 5], [6, 7, 8, 9, 10]] := by decide

/-- C50 (encoding).  A chunk of rows of equal width survives the message encoding. -/
theorem C50_message_round_trip {α : Type} (rows : List (List α)) (w : ℕ) (hne : rows ≠ []) (hw : ∀ r ∈ rows, r.length = w) :
    ∃ m, Msg.ofBatch rows = some m ∧ m.shape = [rows.length, w] ∧ m.toBatch = some rows := by
  have hpos : 0 < rows.length := List.length_pos_iff.mpr hne
  have hlen : rows.flatten.length = rows.length * w := by
    rw [List.length_flatten]
    have : rows.map List.length = List.replicate rows.length w := by
      rw [List.eq_replicate_iff]
      refine ⟨by simp, ?_⟩
      intro b hb
      obtain ⟨c, hc, rfl⟩ := List.mem_map.mp hb
      exact hw c hc
    rw [this, List.sum_replicate]; try rfl
  have hdiv : rows.flatten.length / rows.length = w := by rw [hlen]; exact Nat.mul_div_cancel_left _ hpos
  refine ⟨⟨[rows.length, w], rows.flatten⟩, ?_, rfl, ?_⟩
  · unfold Msg.ofBatch
    rw [if_neg (by omega), hdiv]
  · unfold Msg.toBatch
    simp only [hlen, if_true]
    congr 1
    clear hdiv hlen hpos hne
    induction rows with
    | nil => rfl
    | cons r rows ih =>
      rw [List.length_cons, List.range_succ_eq_map, List.map_cons, List.map_map, List.flatten_cons]
      have hr : r.length = w := hw r (by simp)
      congr 1
      · rw [Nat.zero_mul, List.drop_zero, ← hr, List.take_left]
      · rw [← ih (fun r hr => hw r (by simp [hr]))]
        rw [ih (fun r hr => hw r (by simp [hr]))]
        refine Eq.trans ?_ (ih (fun r hr => hw r (by simp [hr])))
        apply List.map_congr_left
        intro i _
        simp only [Function.comp_apply]
        rw [show (i + 1) * w = r.length + i * w by rw [hr]; ring, ← List.drop_drop, List.drop_left]

namespace Spec

/-- The executions of a call in which the board answers each request at most once, and only after it was published; the
answer to a request is `f` applied to each of its rows.  Answers may come in any order and with any delay, the caller
may time out at any wait, and the threads interleave freely.  The list holds the positions of the requests answered. -/
inductive AtMostOnce {α β : Type} (f : α → β) (start : St α β) : St α β → List ℕ → Prop
  | start : AtMostOnce f start start []
  | thread {s s' : St α β} {u : List ℕ} {a : Act β} : AtMostOnce f start s u → (∀ r, a ≠ .store r) →
      s.step a = some s' → AtMostOnce f start s' u
  | answer {s s' : St α β} {u : List ℕ} {k : ℕ} {c : List α} : AtMostOnce f start s u → k ∉ u →
      s.published[k]? = some c → s.step (.store (c.map f)) = some s' → AtMostOnce f start s' (k :: u)

/-- The same executions in which no wait times out. -/
inductive InTime {α β : Type} (f : α → β) (start : St α β) : St α β → List ℕ → Prop
  | start : InTime f start start []
  | thread {s s' : St α β} {u : List ℕ} {a : Act β} : InTime f start s u → a = .main ∨ a = .set →
      s.step a = some s' → InTime f start s' u
  | answer {s s' : St α β} {u : List ℕ} {k : ℕ} {c : List α} : InTime f start s u → k ∉ u →
      s.published[k]? = some c → s.step (.store (c.map f)) = some s' → InTime f start s' (k :: u)

end Spec

namespace Fpga

/-- What holds of every state of an `AtMostOnce` execution of a call on `chunks`. -/
def Matched {α β : Type} (f : α → β) (chunks : List (List α)) (s : St α β) (u : List ℕ) : Prop :=
  match s.done with
  | some none => True
  | some (some out) => out = chunks.flatten.map f
  | none => ∃ pre, chunks = pre ++ s.todo ∧ s.collected = pre.map (List.map f) ∧ (∀ k < pre.length, k ∈ u) ∧
      ((s.published = pre ∧ (s.pc = .clear ∨ s.pc = .reset ∨ s.pc = .publish ∧ s.result = none)) ∨
       (∃ c rest, s.todo = c :: rest ∧ s.published = pre ++ [c] ∧ (s.pc = .wait ∨ s.pc = .check ∨ s.pc = .collect) ∧
          (s.result = none ∨ s.result = some (c.map f) ∧ pre.length ∈ u)))

theorem matched_of {α β : Type} (f : α → β) (chunks : List (List α)) (e st : Bool) (r : Option (List β)) {s : St α β}
    {u : List ℕ} (h : Spec.AtMostOnce f { St.init chunks e r with storing := st } s u) : Matched f chunks s u := by
  induction h with
  | start => exact ⟨[], by simp [St.init]⟩
  | @thread s s' u a _ ha hs ih =>
    cases a with
    | store r => exact absurd rfl (ha r)
    | main =>
      obtain ⟨todo, pc, event, result, storing, collected, published, done⟩ := s
      cases done with
      | some o => simp [St.step] at hs
      | none =>
      obtain ⟨pre, h1, h2, h3, h4⟩ := ih
      dsimp only at h1 h2 h4
      cases todo with
      | nil =>
        simp only [St.step, Option.isSome_none, Bool.false_eq_true, if_false, Option.some.injEq] at hs
        subst hs
        show _ = _
        rw [h1, h2, List.append_nil, List.map_flatten]
      | cons c rest =>
        rcases h4 with ⟨hp, hpc⟩ | ⟨c', rest', ht', hp, hpc, hr⟩
        · rcases hpc with rfl | rfl | ⟨rfl, hr⟩
          · simp only [St.step, Option.isSome_none, Bool.false_eq_true, if_false, Option.some.injEq] at hs
            subst hs
            exact ⟨pre, h1, h2, h3, .inl ⟨hp, .inr (.inl rfl)⟩⟩
          · simp only [St.step, Option.isSome_none, Bool.false_eq_true, if_false, Option.some.injEq] at hs
            subst hs
            exact ⟨pre, h1, h2, h3, .inl ⟨hp, .inr (.inr ⟨rfl, rfl⟩)⟩⟩
          · simp only [St.step, Option.isSome_none, Bool.false_eq_true, if_false, Option.some.injEq] at hs
            subst hs
            exact ⟨pre, h1, h2, h3, .inr ⟨c, rest, rfl, by rw [hp], .inl rfl, .inl hr⟩⟩
        · injection ht' with hc hrest
          subst hc; subst hrest
          rcases hpc with rfl | rfl | rfl
          · simp only [St.step, Option.isSome_none, Bool.false_eq_true, if_false] at hs
            split_ifs at hs
            injection hs with hs
            subst hs
            exact ⟨pre, h1, h2, h3, .inr ⟨_, _, rfl, hp, .inr (.inl rfl), hr⟩⟩
          · simp only [St.step, Option.isSome_none, Bool.false_eq_true, if_false] at hs
            cases result with
            | none =>
              injection hs with hs
              subst hs
              trivial
            | some r' =>
              injection hs with hs
              subst hs
              exact ⟨pre, h1, h2, h3, .inr ⟨_, _, rfl, hp, .inr (.inr rfl), hr⟩⟩
          · simp only [St.step, Option.isSome_none, Bool.false_eq_true, if_false] at hs
            cases result with
            | none =>
              injection hs with hs
              subst hs
              trivial
            | some r' =>
              injection hs with hs
              subst hs
              obtain ⟨hr, hu⟩ : r' = c.map f ∧ pre.length ∈ u := by
                rcases hr with hr | ⟨hr, hu⟩
                · cases hr
                · exact ⟨Option.some.inj hr, hu⟩
              refine ⟨pre ++ [c], by rw [h1]; simp, by rw [h2, hr]; simp, ?_, .inl ⟨hp, .inl rfl⟩⟩
              intro k hk
              rw [List.length_append, List.length_singleton] at hk
              rcases Nat.lt_succ_iff_lt_or_eq.mp hk with hk | rfl
              · exact h3 k hk
              · exact hu
    | timeout =>
      obtain ⟨todo, pc, event, result, storing, collected, published, done⟩ := s
      cases done with
      | some o => simp [St.step] at hs
      | none =>
      obtain ⟨pre, h1, h2, h3, h4⟩ := ih
      dsimp only at h1 h2 h4
      simp only [St.step, Option.isSome_none, Bool.false_eq_true, if_false] at hs
      split at hs
      · injection hs with hs
        subst hs
        rcases h4 with ⟨_, h | h | ⟨h, _⟩⟩ | ⟨c', rest', ht', hp, _, hr⟩
        · cases h
        · cases h
        · cases h
        · exact ⟨pre, h1, h2, h3, .inr ⟨c', rest', ht', hp, .inr (.inl rfl), hr⟩⟩
      · cases hs
    | set =>
      simp only [St.step] at hs
      split_ifs at hs
      injection hs with hs
      subst hs
      exact ih
  | @answer s s' u k c _ hk hc hs ih =>
    simp only [St.step] at hs
    split_ifs at hs
    injection hs with hs
    subst hs
    unfold Matched at ih ⊢
    simp only
    rcases hd : s.done with _ | _ | out
    · rw [hd] at ih
      obtain ⟨pre, h1, h2, h3, h4⟩ := ih
      have hkl : k < s.published.length := (List.getElem?_eq_some_iff.mp hc).1
      rcases h4 with ⟨hp, _⟩ | ⟨c', rest', ht, hp, hpc, hr⟩
      · exact absurd (h3 k (hp ▸ hkl)) hk
      · rw [hp, List.length_append, List.length_singleton] at hkl
        rcases Nat.lt_succ_iff_lt_or_eq.mp hkl with hlt | rfl
        · exact absurd (h3 k hlt) hk
        · rw [hp, List.getElem?_append_right le_rfl, Nat.sub_self] at hc
          injection hc with hc
          subst hc
          exact ⟨pre, h1, h2, fun j hj => List.mem_cons_of_mem _ (h3 j hj),
            .inr ⟨_, _, ht, hp, hpc, .inr ⟨rfl, List.mem_cons_self⟩⟩⟩
    · trivial
    · rw [hd] at ih; exact ih

theorem inTime_atMostOnce {α β : Type} {f : α → β} {start s : St α β} {u : List ℕ} (h : Spec.InTime f start s u) :
    Spec.AtMostOnce f start s u := by
  induction h with
  | start => exact .start
  | thread _ ha hs ih => exact .thread ih (by rcases ha with rfl | rfl <;> simp) hs
  | answer _ hk hc hs ih => exact .answer ih hk hc hs

/-- An answer can only arrive while its own request is the outstanding one. -/
theorem Matched.outstanding {α β : Type} {f : α → β} {chunks : List (List α)} {s : St α β} {u : List ℕ} {k : ℕ}
    {c : List α} (h : Matched f chunks s u) (hd : s.done = none) (hk : k ∉ u) (hc : s.published[k]? = some c) :
    (s.pc = .wait ∨ s.pc = .check ∨ s.pc = .collect) ∧ s.result = none := by
  unfold Matched at h
  rw [hd] at h
  obtain ⟨pre, h1, h2, h3, h4⟩ := h
  have hkl : k < s.published.length := (List.getElem?_eq_some_iff.mp hc).1
  rcases h4 with ⟨hp, _⟩ | ⟨c', rest', ht, hp, hpc, hr⟩
  · exact absurd (h3 k (hp ▸ hkl)) hk
  · rw [hp, List.length_append, List.length_singleton] at hkl
    have : k = pre.length := by
      rcases Nat.lt_succ_iff_lt_or_eq.mp hkl with hlt | h
      · exact absurd (h3 k hlt) hk
      · exact h
    subst this
    refine ⟨hpc, ?_⟩
    rcases hr with hr | ⟨_, hu⟩
    · exact hr
    · exact absurd hu hk

/-- Without timeouts: what rules out a failed call. -/
def Prompt {α β : Type} (s : St α β) : Prop :=
  match s.done, s.pc with
  | some none, _ => False
  | some (some _), _ => True
  | none, .clear => s.storing = false
  | none, .reset | none, .publish => s.storing = false ∧ s.event = false
  | none, .wait => (s.storing = true → s.result ≠ none) ∧ (s.event = true → s.result ≠ none ∧ s.storing = false)
  | none, .check | none, .collect => s.result ≠ none ∧ s.storing = false

theorem prompt_of {α β : Type} (f : α → β) (chunks : List (List α)) (e : Bool) (r : Option (List β)) {s : St α β}
    {u : List ℕ} (h : Spec.InTime f (St.init chunks e r) s u) : Prompt s := by
  induction h with
  | start => rfl
  | @thread s s' u a _ ha hs ih =>
    obtain ⟨todo, pc, event, result, storing, collected, published, done⟩ := s
    rcases ha with rfl | rfl
    · cases done with
      | some o => simp [St.step] at hs
      | none =>
      cases todo with
      | nil =>
        simp only [St.step, Option.isSome_none, Bool.false_eq_true, if_false, Option.some.injEq] at hs
        subst hs
        trivial
      | cons c rest =>
        cases pc with
        | clear =>
          simp only [St.step, Option.isSome_none, Bool.false_eq_true, if_false, Option.some.injEq] at hs
          subst hs
          exact ⟨ih, rfl⟩
        | reset =>
          simp only [St.step, Option.isSome_none, Bool.false_eq_true, if_false, Option.some.injEq] at hs
          subst hs
          exact ih
        | publish =>
          simp only [St.step, Option.isSome_none, Bool.false_eq_true, if_false, Option.some.injEq] at hs
          subst hs
          obtain ⟨h1, h2⟩ : storing = false ∧ event = false := ih
          subst h1; subst h2
          exact ⟨by simp, by simp⟩
        | wait =>
          simp only [St.step, Option.isSome_none, Bool.false_eq_true, if_false] at hs
          obtain ⟨_, h2⟩ : (storing = true → result ≠ none) ∧ (event = true → result ≠ none ∧ storing = false) := ih
          split_ifs at hs with he
          injection hs with hs
          subst hs
          exact h2 he
        | check =>
          obtain ⟨h1, h2⟩ : result ≠ none ∧ storing = false := ih
          cases result with
          | none => exact absurd rfl h1
          | some r' =>
            simp only [St.step, Option.isSome_none, Bool.false_eq_true, if_false, Option.some.injEq] at hs
            subst hs
            exact ⟨h1, h2⟩
        | collect =>
          obtain ⟨h1, h2⟩ : result ≠ none ∧ storing = false := ih
          cases result with
          | none => exact absurd rfl h1
          | some r' =>
            simp only [St.step, Option.isSome_none, Bool.false_eq_true, if_false, Option.some.injEq] at hs
            subst hs
            exact h2
    · simp only [St.step] at hs
      split_ifs at hs with hst
      injection hs with hs
      subst hs
      rcases done with _ | _ | out
      · cases pc with
        | clear => exact absurd (show storing = false from ih) (by simp [hst])
        | reset => exact absurd (show storing = false from ih.1) (by simp [hst])
        | publish => exact absurd (show storing = false from ih.1) (by simp [hst])
        | wait => exact ⟨by simp, fun _ => ⟨ih.1 hst, rfl⟩⟩
        | check => exact absurd (show storing = false from ih.2) (by simp [hst])
        | collect => exact absurd (show storing = false from ih.2) (by simp [hst])
      · exact ih
      · trivial
  | @answer s s' u k c hrun hk hc hs ih =>
    have hm := matched_of f chunks e false r (inTime_atMostOnce hrun)
    obtain ⟨todo, pc, event, result, storing, collected, published, done⟩ := s
    simp only [St.step] at hs
    split_ifs at hs with hst
    injection hs with hs
    subst hs
    rcases done with _ | _ | out
    · obtain ⟨hpc, hr⟩ := hm.outstanding rfl hk hc
      dsimp only at hpc hr
      subst hr
      rcases hpc with rfl | rfl | rfl
      · refine ⟨by simp, fun he => absurd rfl (ih.2 he).1⟩
      · exact absurd rfl ih.1
      · exact absurd rfl ih.1
    · exact ih
    · trivial

end Fpga

/-- C51 (matching).  Whatever an earlier call left behind (result, event, a callback about to signal), if each request of
this call is answered at most once and no answer to anything else arrives, then under every interleaving, delay and
timeout the call either fails or returns the answers of all rows in the order of the batch. -/
theorem C51_matched {α β : Type} (f : α → β) (x : List α) (m : ℕ) (chunks : List (List α)) (hx : split x m = some chunks)
    (e st : Bool) (r : Option (List β)) (s : St α β) (u : List ℕ) (out : List β)
    (h : Spec.AtMostOnce f { St.init chunks e r with storing := st } s u) (hd : s.done = some (some out)) :
    out = x.map f := by
  have := matched_of f chunks e st r h
  unfold Matched at this
  rw [hd, C50_nothing_lost x m chunks hx] at this
  exact this

/-- C51 (no spurious failure).  If moreover no wait times out and the previous callback has finished, the call cannot
fail. -/
theorem C51_in_time {α β : Type} (f : α → β) (chunks : List (List α)) (e : Bool) (r : Option (List β)) (s : St α β)
    (u : List ℕ) (h : Spec.InTime f (St.init chunks e r) s u) : s.done ≠ some none := by
  have := prompt_of f chunks e r h
  intro hd
  unfold Prompt at this
  rw [hd] at this
  exact this

namespace Fpga

/-- The schedule in which each request is answered at once. -/
def ideal {α β : Type} (f : α → β) : List (List α) → List (Act β)
  | [] => [.main]
  | c :: cs => [.main, .main, .main, .store (c.map f), .set, .main, .main, .main] ++ ideal f cs

theorem run_append {α β : Type} (s : St α β) (a b : List (Act β)) : s.run (a ++ b) = (s.run a).bind (·.run b) := by
  unfold St.run; rw [List.foldlM_append]; rfl

theorem ideal_run {α β : Type} (f : α → β) : ∀ (cs : List (List α)) (e : Bool) (r : Option (List β)) (col : List (List β))
    (pub : List (List α)),
    ∃ s, St.run (α := α) ⟨cs, .clear, e, r, false, col, pub, none⟩ (ideal f cs) = some s ∧
      s.done = some (some (col.flatten ++ cs.flatten.map f)) ∧ s.published = pub ++ cs
  | [], e, r, col, pub => ⟨_, rfl, by simp, by simp⟩
  | c :: cs, e, r, col, pub => by
    obtain ⟨s, h1, h2, h3⟩ := ideal_run f cs true (some (c.map f)) (col ++ [c.map f]) (pub ++ [c])
    refine ⟨s, ?_, ?_, ?_⟩
    · rw [ideal, run_append]
      exact h1
    · rw [h2]; simp
    · rw [h3]; simp

end Fpga

/-- C51 (progress).  When every request is answered before its wait times out, the call publishes exactly the chunks and
returns the answers of all rows in the order of the batch. -/
theorem C51_completes {α β : Type} (f : α → β) (x : List α) (m : ℕ) (chunks : List (List α))
    (hx : split x m = some chunks) (e : Bool) (r : Option (List β)) :
    ∃ s, (St.init chunks e r).run (ideal f chunks) = some s ∧ s.published = chunks ∧ s.done = some (some (x.map f)) := by
  obtain ⟨s, h1, h2, h3⟩ := ideal_run f chunks e r [] []
  refine ⟨s, h1, by simpa using h3, ?_⟩
  rw [h2, C50_nothing_lost x m chunks hx]; rfl

/-- C51 (false with duplicates).  If the answer to the first chunk is delivered a second time after the second chunk was
requested, the call returns the first chunk's answers twice, whatever the chunks are. -/
theorem C51_duplicate_wrong {α β : Type} (f : α → β) (c₀ c₁ : List α) :
    ∃ acts : List (Act β), (∀ r, Act.store r ∈ acts → r = c₀.map f) ∧
      ∃ s, (St.init [c₀, c₁] false none).run acts = some s ∧ s.done = some (some (c₀.map f ++ c₀.map f)) := by
  refine ⟨[.main, .main, .main, .store (c₀.map f), .set, .main, .main, .main,
    .main, .main, .main, .store (c₀.map f), .set, .main, .main, .main, .main], ?_, _, rfl, ?_⟩
  · intro r hr; simpa using hr
  · simp [St.init]

/-- C51 (false with late answers).  A message that answers an earlier, timed-out call is returned as the answer to the
current one, whatever it contains and however many rows it has. -/
theorem C51_late_wrong {α β : Type} (c : List α) (stale : List β) :
    ∃ s, (St.init [c] false none).run [.main, .main, .main, .store stale, .set, .main, .main, .main, .main] = some s ∧
      s.done = some (some stale) :=
  ⟨_, rfl, by simp [St.init]⟩

/-- C51 (a spurious failure).  If a wait times out just when the answer has been stored but not yet signalled, the
signal can be taken for the next chunk's: the call fails although nothing was lost and the second wait did not time
out. -/
theorem C51_late_signal {α β : Type} (f : α → β) (c₀ c₁ : List α) :
    ∃ s, (St.init [c₀, c₁] false none).run [.main, .main, .main, .store (c₀.map f), .timeout, .main, .main,
      .main, .main, .set, .main, .main, .main] = some s ∧ s.done = some none :=
  ⟨_, rfl, rfl⟩

/-- The hypotheses of `C51_matched` are met by a run in which the second answer waits, the first wait times out after the
answer was stored, and the call still returns every row's answer. -/
example : ∃ s u, Spec.AtMostOnce (fun n : ℕ => n * n) (St.init [[0, 1], [2, 3]] true (some [7])) s u ∧
    split [0, 1, 2, 3] 2 = some [[0, 1], [2, 3]] ∧ s.done = some (some [0, 1, 4, 9]) := by
  have h := Spec.AtMostOnce.start (f := fun n : ℕ => n * n) (start := St.init [[0, 1], [2, 3]] true (some [7]))
  have h := h.thread (a := .main) (by simp) rfl
  have h := h.thread (a := .main) (by simp) rfl
  have h := h.thread (a := .main) (by simp) rfl
  have h := h.answer (k := 0) (by simp) rfl rfl
  have h := h.thread (a := .timeout) (by simp) rfl
  have h := h.thread (a := .set) (by simp) rfl
  have h := h.thread (a := .main) (by simp) rfl
  have h := h.thread (a := .main) (by simp) rfl
  have h := h.thread (a := .main) (by simp) rfl
  have h := h.thread (a := .main) (by simp) rfl
  have h := h.thread (a := .main) (by simp) rfl
  have h := h.answer (k := 1) (by simp) rfl rfl
  have h := h.thread (a := .set) (by simp) rfl
  have h := h.thread (a := .main) (by simp) rfl
  have h := h.thread (a := .main) (by simp) rfl
  have h := h.thread (a := .main) (by simp) rfl
  have h := h.thread (a := .main) (by simp) rfl
  exact ⟨_, _, h, by decide, rfl⟩

end Verif
