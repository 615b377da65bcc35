import Verif.Model.GenericDtype
import Verif.Lemmas.Num
import Verif.Spec.Dtype
import Mathlib.Tactic.Linarith
import Mathlib.Tactic.Ring

/-!
# Properties C08–C10: dtype names and widening integer arithmetic
-/

namespace Verif
open Spec

/-! ## Lemmas about characters and runs -/

theorem toLower_cases (c : Char) : c.toLower = c ∨ (c.isUpper = true ∧ c.toLower.isLower = true) := by
  by_cases h : c.val ≥ 'A'.val ∧ c.val ≤ 'Z'.val
  · right
    obtain ⟨h1, h2⟩ := h
    refine ⟨?_, ?_⟩
    · simp only [Char.isUpper, Bool.and_eq_true, decide_eq_true_eq]; exact ⟨h1, h2⟩
    · simp only [Char.toLower, h1, h2, and_self, dite_true]
      simp only [Char.isLower, Bool.and_eq_true, decide_eq_true_eq]
      simp only [ge_iff_le, UInt32.le_iff_toNat_le] at *
      rw [UInt32.toNat_add]
      simp at *
      omega
  · left
    simp only [Char.toLower]
    rw [dif_neg h]

theorem isLower_not_digit {c : Char} (h : c.isLower = true) : c.isDigit = false := by
  simp only [Char.isLower, Char.isDigit, Bool.and_eq_true, Bool.and_eq_false_iff, decide_eq_true_eq,
    decide_eq_false_iff_not, ge_iff_le, UInt32.le_iff_toNat_le] at *
  simp at *
  omega

theorem isUpper_not_digit {c : Char} (h : c.isUpper = true) : c.isDigit = false := by
  simp only [Char.isUpper, Char.isDigit, Bool.and_eq_true, Bool.and_eq_false_iff, decide_eq_true_eq,
    decide_eq_false_iff_not, ge_iff_le, UInt32.le_iff_toNat_le] at *
  simp at *
  omega

theorem isAlpha_not_digit {c : Char} (h : c.isAlpha = true) : c.isDigit = false := by
  simp only [Char.isAlpha, Bool.or_eq_true] at h
  rcases h with h | h
  · exact isUpper_not_digit h
  · exact isLower_not_digit h

theorem isDigit_not_alpha {c : Char} (h : c.isDigit = true) : c.isAlpha = false := by
  by_contra hc
  simp only [Bool.not_eq_false] at hc
  rw [isAlpha_not_digit hc] at h
  cases h

theorem isAlpha_toLower (c : Char) : c.toLower.isAlpha = c.isAlpha := by
  rcases toLower_cases c with h | ⟨h1, h2⟩
  · rw [h]
  · simp [Char.isAlpha, h1, h2]

theorem toLower_of_digit {c : Char} (h : c.toLower.isDigit = true) : c.toLower = c := by
  rcases toLower_cases c with h' | ⟨_, h2⟩
  · exact h'
  · rw [isLower_not_digit h2] at h; cases h

theorem firstRun_append (p : Char → Bool) (a b c : List Char) (ha : ∀ x ∈ a, p x = false)
    (hb : ∀ x ∈ b, p x = true) (hb0 : b ≠ []) (hc : ∀ x ∈ c, p x = false) :
    firstRun p (a ++ (b ++ c)) = some b := by
  have h1 : (a ++ (b ++ c)).dropWhile (fun x => !p x) = b ++ c := by
    induction a with
    | nil =>
      cases b with
      | nil => exact absurd rfl hb0
      | cons x t => simp [List.dropWhile, hb x (by simp)]
    | cons x t ih =>
      simp only [List.cons_append, List.dropWhile, ha x (by simp), Bool.not_false]
      exact ih (fun y hy => ha y (by simp [hy]))
  have h2 : (b ++ c).takeWhile p = b := by
    clear h1 hb0
    induction b with
    | nil =>
      cases c with
      | nil => rfl
      | cons x t => simp [List.takeWhile, hc x (by simp)]
    | cons x t ih =>
      simp only [List.cons_append, List.takeWhile, hb x (by simp)]
      rw [ih (fun y hy => hb y (by simp [hy]))]
  unfold firstRun
  rw [h1, h2]
  cases b with
  | nil => exact absurd rfl hb0
  | cons x t => rfl

/-! ## C08 -/

/-- The dtype object for type word `ty` and `n` bits. -/
def dtypeOf (ty : String) (n : ℕ) : GDtype :=
  if ty = "int" then ⟨-(2 ^ (n - 1)), 2 ^ (n - 1) - 1, ty ++ Nat.repr n⟩
  else ⟨0, 2 ^ n - 1, ty ++ Nat.repr n⟩

/-- Helper for C08: an accepted text parses to the stated dtype. -/
theorem ofString_of_names (s ty : String) (n : ℕ) (hty : ty ∈ ["int", "uint", "float"]) (hn : 0 < n)
    (h : NamesType s ty n) : GDtype.ofString s.toList = .ok (dtypeOf ty n) := by
  unfold NamesType lowerText at h
  rw [Nat.toList_repr] at h
  obtain ⟨s1, s2, hs, h1, h2⟩ := List.map_eq_append_iff.mp h
  have halpha : ∀ x ∈ ty.toList, x.isAlpha = true := by
    simp only [List.mem_cons, List.not_mem_nil, or_false] at hty
    rcases hty with rfl | rfl | rfl <;> decide
  have hs1a : ∀ x ∈ s1, x.isAlpha = true := fun x hx => by
    rw [← isAlpha_toLower]
    exact halpha _ (h1 ▸ List.mem_map_of_mem hx)
  have hdig : ∀ x ∈ Nat.toDigits 10 n, x.isDigit = true := fun x hx =>
    Nat.isDigit_of_mem_toDigits (by decide) (by decide) hx
  have hs2l : ∀ x ∈ s2, x.toLower = x := fun x hx =>
    toLower_of_digit (hdig _ (h2 ▸ List.mem_map_of_mem hx))
  have hs2 : s2 = Nat.toDigits 10 n := by
    rw [← h2]
    conv_lhs => rw [← List.map_id s2]
    exact List.map_congr_left (fun x hx => (hs2l x hx).symm)
  have hdne : Nat.toDigits 10 n ≠ [] := Nat.toDigits_ne_nil
  have hs1ne : s1 ≠ [] := by
    rintro rfl
    simp only [List.mem_cons, List.not_mem_nil, or_false] at hty
    rcases hty with rfl | rfl | rfl <;> simp at h1
  have r1 : firstRun Char.isDigit s.toList = some (Nat.toDigits 10 n) := by
    rw [hs, hs2]
    have := firstRun_append Char.isDigit s1 (Nat.toDigits 10 n) []
      (fun x hx => isAlpha_not_digit (hs1a x hx)) hdig hdne (by simp)
    simpa using this
  have r2 : firstRun Char.isAlpha s.toList = some s1 := by
    rw [hs]
    have := firstRun_append Char.isAlpha [] s1 s2 (by simp) hs1a hs1ne
      (fun x hx => isDigit_not_alpha (hdig x (hs2 ▸ hx)))
    simpa using this
  have hlow : lower s.toList = ty.toList ++ Nat.toDigits 10 n := h
  unfold GDtype.ofString
  simp only [r1, r2, Nat.ofDigitChars_ten_toDigits, hlow]
  have hl1 : lower s1 = ty.toList := h1
  rw [hl1]
  have hallowed : ty.toList ∈ allowedTypes := by
    simp only [List.mem_cons, List.not_mem_nil, or_false] at hty
    rcases hty with rfl | rfl | rfl <;> decide
  rw [if_neg (by simpa using hallowed), if_neg (by omega), if_neg (by simp)]
  have hrepr : String.ofList (ty.toList ++ Nat.toDigits 10 n) = ty ++ Nat.repr n := by
    rw [← String.toList_inj]; simp
  rw [hrepr]
  unfold dtypeOf
  by_cases hi : ty = "int"
  · subst hi; simp
  · have : ty.toList ≠ "int".toList := fun e => hi (String.toList_inj.mp e)
    simp only [this, decide_false, Bool.false_eq_true, if_false, hi]

/-- C08 (accepted texts).  `GenericDtype(text)` succeeds exactly on `int`/`uint`/`float` (any case)
followed by the canonical decimal notation of a positive number of bits. -/
theorem C08_accepts_iff (s : String) :
    (∃ d, GDtype.ofString s.toList = .ok d) ↔
      ∃ ty ∈ ["int", "uint", "float"], ∃ n : ℕ, 0 < n ∧ NamesType s ty n := by
  constructor
  · rintro ⟨d, hd⟩
    unfold GDtype.ofString at hd
    split at hd
    · cases hd
    · rename_i ds hds
      simp only at hd
      split at hd
      · cases hd
      · rename_i ty hty
        split_ifs at hd with h1 h2 h3
        all_goals
          simp only [not_not, ne_eq] at h1 h3
          have hmem : ∃ t ∈ ["int", "uint", "float"], lower ty = t.toList := by
            simp only [allowedTypes, List.mem_cons, List.not_mem_nil, or_false] at h1
            rcases h1 with h | h | h
            · exact ⟨"int", by simp, h⟩
            · exact ⟨"float", by simp, h⟩
            · exact ⟨"uint", by simp, h⟩
          obtain ⟨t, ht, hlt⟩ := hmem
          refine ⟨t, ht, Nat.ofDigitChars 10 ds 0, by omega, ?_⟩
          unfold NamesType lowerText
          rw [Nat.toList_repr, ← hlt]
          exact h3.symm
  · rintro ⟨ty, hty, n, hn, h⟩
    exact ⟨_, ofString_of_names s ty n hty hn h⟩

/-- C08 (meaning).  The range is the two's complement range of that many bits for `int`, the unsigned
range otherwise (also for `float`), and `str()` gives back the lower-cased text. -/
theorem C08_range (s ty : String) (n : ℕ) (hty : ty ∈ ["int", "uint", "float"]) (hn : 0 < n)
    (h : NamesType s ty n) :
    ∃ d, GDtype.ofString s.toList = .ok d ∧ d.repr.toList = lowerText s ∧
      ∀ v : ℤ, (d.min ≤ v ∧ v ≤ d.max) ↔ Representable (ty == "int") n v := by
  refine ⟨_, ofString_of_names s ty n hty hn h, ?_, ?_⟩
  · rw [h]; unfold dtypeOf; split_ifs <;> simp
  · intro v
    unfold dtypeOf Representable
    by_cases hi : ty = "int" <;> simp [hi]

/-- C08 (rejection).  Every other text raises (`IndexError` or `TypeError`). -/
theorem C08_rejects (s : String)
    (h : ¬ ∃ ty ∈ ["int", "uint", "float"], ∃ n : ℕ, 0 < n ∧ NamesType s ty n) :
    ∃ e, GDtype.ofString s.toList = .error e := by
  cases hg : GDtype.ofString s.toList with
  | error e => exact ⟨e, rfl⟩
  | ok d => exact absurd ((C08_accepts_iff s).mp ⟨d, hg⟩) h

/-- Concrete cases: mixed case accepted; leading zero, zero bits, trailing text, missing parts rejected. -/
example : NamesType "UInt16" "uint" 16 ∧
    GDtype.ofString "Int8".toList = .ok ⟨-128, 127, "int8"⟩ ∧
    GDtype.ofString "UInt16".toList = .ok ⟨0, 65535, "uint16"⟩ ∧
    GDtype.ofString "int08".toList = .error .typeError ∧
    GDtype.ofString "int0".toList = .error .typeError ∧
    GDtype.ofString "8int".toList = .error .typeError ∧
    GDtype.ofString "int8_t".toList = .error .typeError ∧
    GDtype.ofString "int".toList = .error .indexError ∧
    GDtype.ofString "bool8".toList = .error .typeError := by
  refine ⟨?_, ?_⟩
  · unfold NamesType; decide +kernel
  · decide +kernel

/-! ## C09 -/

theorem NDtype.wrap_of_rep {d : NDtype} (hb : 0 < d.bits) {v : ℤ} (h : Representable d.signed d.bits v) :
    d.wrap v = v := by
  unfold NDtype.wrap Representable at *
  split_ifs at * with hs
  · obtain ⟨k, hk⟩ : ∃ k, d.bits = k + 1 := ⟨d.bits - 1, by omega⟩
    rw [hk] at h ⊢
    simp only [Nat.add_sub_cancel] at h
    exact wrapS_of_mem h.1 (by omega)
  · exact wrapU_of_mem h.1 (by omega)

theorem NDtype.rep_iff (d : NDtype) (v : ℤ) : Representable d.signed d.bits v ↔ d.min ≤ v ∧ v ≤ d.max := by
  unfold Representable NDtype.min NDtype.max
  cases d.signed <;> simp

theorem rep_mono {sg : Bool} {m n : ℕ} (h : m ≤ n) {v : ℤ} (hv : Representable sg m v) :
    Representable sg n v := by
  unfold Representable at *
  have h1 : (2 : ℤ) ^ m ≤ 2 ^ n := pow_le_pow_right₀ (by norm_num) h
  have h2 : (2 : ℤ) ^ (m - 1) ≤ 2 ^ (n - 1) := pow_le_pow_right₀ (by norm_num) (by omega)
  split_ifs at * <;> constructor <;> omega

theorem rep_add {sg : Bool} {n : ℕ} (hn : 0 < n) {a b : ℤ} (ha : Representable sg n a)
    (hb : Representable sg n b) : Representable sg (n * 2) (a + b) := by
  unfold Representable at *
  split_ifs at *
  · obtain ⟨k, rfl⟩ : ∃ k, n = k + 1 := ⟨n - 1, by omega⟩
    have e : (k + 1) * 2 - 1 = k + (k + 1) := by omega
    have hp : (0 : ℤ) < 2 ^ k := by positivity
    have : (2 : ℤ) ^ (k + (k + 1)) = 2 ^ k * (2 * 2 ^ k) := by ring
    simp only [Nat.add_sub_cancel] at ha hb
    rw [e, this]
    constructor <;> nlinarith
  · have hp : (2 : ℤ) ≤ 2 ^ n := by
      calc (2 : ℤ) = 2 ^ 1 := by norm_num
        _ ≤ 2 ^ n := pow_le_pow_right₀ (by norm_num) hn
    have : (2 : ℤ) ^ (n * 2) = 2 ^ n * 2 ^ n := by ring
    rw [this]
    constructor <;> nlinarith

theorem rep_sub {sg : Bool} {n : ℕ} (hn : 0 < n) {a b : ℤ} (ha : Representable sg n a)
    (hb : Representable sg n b) (hc : sg = true ∨ b ≤ a) : Representable sg (n * 2) (a - b) := by
  unfold Representable at *
  split_ifs at * with h
  · obtain ⟨k, rfl⟩ : ∃ k, n = k + 1 := ⟨n - 1, by omega⟩
    have e : (k + 1) * 2 - 1 = k + (k + 1) := by omega
    have hp : (0 : ℤ) < 2 ^ k := by positivity
    have : (2 : ℤ) ^ (k + (k + 1)) = 2 ^ k * (2 * 2 ^ k) := by ring
    simp only [Nat.add_sub_cancel] at ha hb
    rw [e, this]
    constructor <;> nlinarith
  · have hp : (2 : ℤ) ≤ 2 ^ n := by
      calc (2 : ℤ) = 2 ^ 1 := by norm_num
        _ ≤ 2 ^ n := pow_le_pow_right₀ (by norm_num) hn
    have : (2 : ℤ) ^ (n * 2) = 2 ^ n * 2 ^ n := by ring
    rw [this]
    have hba : b ≤ a := by
      rcases hc with hc | hc
      · exact absurd hc h
      · exact hc
    constructor <;> nlinarith

theorem rep_mul {sg : Bool} {n : ℕ} (hn : 0 < n) {a b : ℤ} (ha : Representable sg n a)
    (hb : Representable sg n b) : Representable sg (n * 2) (a * b) := by
  unfold Representable at *
  split_ifs at *
  · obtain ⟨k, rfl⟩ : ∃ k, n = k + 1 := ⟨n - 1, by omega⟩
    have e : (k + 1) * 2 - 1 = k + (k + 1) := by omega
    have hp : (0 : ℤ) < 2 ^ k := by positivity
    have : (2 : ℤ) ^ (k + (k + 1)) = 2 ^ k * (2 * 2 ^ k) := by ring
    simp only [Nat.add_sub_cancel] at ha hb
    rw [e, this]
    have hab : |a * b| ≤ 2 ^ k * 2 ^ k := by
      rw [abs_mul]
      exact mul_le_mul (abs_le.mpr ⟨ha.1, by omega⟩) (abs_le.mpr ⟨hb.1, by omega⟩) (abs_nonneg _)
        hp.le
    have := abs_le.mp hab
    have hpp : (1 : ℤ) ≤ 2 ^ k * 2 ^ k := by nlinarith
    constructor <;> nlinarith
  · have hp : (2 : ℤ) ≤ 2 ^ n := by
      calc (2 : ℤ) = 2 ^ 1 := by norm_num
        _ ≤ 2 ^ n := pow_le_pow_right₀ (by norm_num) hn
    have : (2 : ℤ) ^ (n * 2) = 2 ^ n * 2 ^ n := by ring
    rw [this]
    refine ⟨mul_nonneg ha.1 hb.1, ?_⟩
    have : a * b ≤ (2 ^ n - 1) * (2 ^ n - 1) := mul_le_mul ha.2 hb.2 hb.1 (by omega)
    nlinarith

theorem zipWith_eq_map_zip {α β γ : Type} (f : α → β → γ) (xs : List α) (ys : List β) :
    List.zipWith f xs ys = (List.zip xs ys).map (fun p => f p.1 p.2) := by
  induction xs generalizing ys with
  | nil => simp
  | cons x t ih => cases ys with
    | nil => simp
    | cons y u => simp [ih]

/-- Common part of C09: when the exact result always fits the doubled width, it is returned, labelled with a
dtype that can hold it. -/
theorem arith_exact (op : ℤ → ℤ → ℤ) (x y : DVal) (hsg : x.dt.signed = y.dt.signed)
    (hx0 : 0 < x.dt.bits) (hx : x.dt.bits ≤ 32) (hy : y.dt.bits ≤ 32)
    (hlen : x.vals.length = y.vals.length)
    (hxv : AllRepresentable x.dt.signed x.dt.bits x.vals)
    (hyv : AllRepresentable y.dt.signed y.dt.bits y.vals)
    (hop : ∀ p ∈ List.zip x.vals y.vals,
      Representable x.dt.signed (Nat.max x.dt.bits y.dt.bits * 2) (op p.1 p.2)) :
    ∃ r, DVal.arith op x y = some r ∧ Elementwise op x.vals y.vals r.vals ∧
      AllRepresentable r.dt.signed r.dt.bits r.vals := by
  have hlg : x.dt.larger y.dt = ⟨x.dt.signed, Nat.max x.dt.bits y.dt.bits⟩ := by
    unfold NDtype.larger
    split_ifs with h
    · have : Nat.max x.dt.bits y.dt.bits = x.dt.bits := max_eq_left (by omega)
      rw [this]
    · have : Nat.max x.dt.bits y.dt.bits = y.dt.bits := max_eq_right (by omega)
      rw [this, hsg]
  have hxm : x.dt.bits ≤ Nat.max x.dt.bits y.dt.bits := Nat.le_max_left _ _
  have hym : y.dt.bits ≤ Nat.max x.dt.bits y.dt.bits := Nat.le_max_right _ _
  have hm : Nat.max x.dt.bits y.dt.bits ≤ 32 := Nat.max_le.mpr ⟨hx, hy⟩
  generalize hM : Nat.max x.dt.bits y.dt.bits = M at *
  have hnext : (x.dt.larger y.dt).double = ⟨x.dt.signed, M * 2⟩ := by
    rw [hlg]; unfold NDtype.double
    have : Nat.min 64 (M * 2) = M * 2 := min_eq_right (by omega)
    simp only [this]
  generalize hN : (⟨x.dt.signed, M * 2⟩ : NDtype) = N at *
  have hNs : N.signed = x.dt.signed := by rw [← hN]
  have hNb : N.bits = M * 2 := by rw [← hN]
  have hwrap : ∀ v, Representable x.dt.signed (M * 2) v → N.wrap v = v := fun v hv =>
    NDtype.wrap_of_rep (by omega) (by rw [hNs, hNb]; exact hv)
  have hwx : x.vals.map N.wrap = x.vals := by
    conv_rhs => rw [← List.map_id x.vals]
    exact List.map_congr_left (fun v hv => hwrap v (rep_mono (by omega) (hxv v hv)))
  have hwy : y.vals.map N.wrap = y.vals := by
    conv_rhs => rw [← List.map_id y.vals]
    exact List.map_congr_left (fun v hv => hwrap v (rep_mono (by omega) (hsg ▸ hyv v hv)))
  have hres : (List.zip x.vals y.vals).map (fun p => clip N.min N.max (N.wrap (op p.1 p.2))) =
      List.zipWith op x.vals y.vals := by
    rw [zipWith_eq_map_zip]
    apply List.map_congr_left
    intro p hp
    have hr := hop p hp
    rw [hwrap _ hr]
    have := (NDtype.rep_iff N _).mp (by rw [hNs, hNb]; exact hr)
    exact clip_of_mem this.1 this.2
  refine ⟨⟨List.zipWith op x.vals y.vals, if ((List.zipWith op x.vals y.vals).any
      (fun v => decide (v > x.dt.max)) || (List.zipWith op x.vals y.vals).any
      (fun v => decide (v < x.dt.min))) then N else ⟨x.dt.signed, M⟩⟩, ?_, ?_, ?_⟩
  · unfold DVal.arith
    simp only [hnext, hwx, hwy, bcastPairs, hlen, if_true, hres]
    rw [hlg]
  · refine ⟨by simp [hlen], ?_⟩
    intro i a b ha hb
    simp [List.getElem?_zipWith, ha, hb]
  · intro v hv
    simp only at hv ⊢
    split_ifs with hov
    · rw [hNs, hNb]
      rw [zipWith_eq_map_zip] at hv
      obtain ⟨p, hp, rfl⟩ := List.mem_map.mp hv
      exact hop p hp
    · simp only [Bool.or_eq_true, List.any_eq_true, decide_eq_true_eq, not_or, not_exists, not_and,
        not_lt, gt_iff_lt] at hov
      exact rep_mono hxm ((NDtype.rep_iff x.dt v).mpr ⟨hov.2 v hv, hov.1 v hv⟩)

theorem rep_of_zip {x y : DVal} (hsg : x.dt.signed = y.dt.signed)
    (hxv : AllRepresentable x.dt.signed x.dt.bits x.vals)
    (hyv : AllRepresentable y.dt.signed y.dt.bits y.vals) :
    ∀ p ∈ List.zip x.vals y.vals,
      Representable x.dt.signed (Nat.max x.dt.bits y.dt.bits) p.1 ∧
      Representable x.dt.signed (Nat.max x.dt.bits y.dt.bits) p.2 := by
  intro p hp
  have := List.of_mem_zip (show (p.1, p.2) ∈ _ from hp)
  exact ⟨rep_mono (Nat.le_max_left _ _) (hxv _ this.1),
    rep_mono (Nat.le_max_right _ _) (hsg ▸ hyv _ this.2)⟩

/-- C09, `+`. -/
theorem C09_add_exact (x y : DVal) (hsg : x.dt.signed = y.dt.signed) (hx0 : 0 < x.dt.bits)
    (hx : x.dt.bits ≤ 32) (hy : y.dt.bits ≤ 32) (hlen : x.vals.length = y.vals.length)
    (hxv : AllRepresentable x.dt.signed x.dt.bits x.vals)
    (hyv : AllRepresentable y.dt.signed y.dt.bits y.vals) :
    ∃ r, x.add (.dtype y) = some r ∧ Elementwise (· + ·) x.vals y.vals r.vals ∧
      AllRepresentable r.dt.signed r.dt.bits r.vals :=
  arith_exact _ x y hsg hx0 hx hy hlen hxv hyv (fun p hp =>
    rep_add (lt_of_lt_of_le hx0 (Nat.le_max_left _ _)) (rep_of_zip hsg hxv hyv p hp).1
      (rep_of_zip hsg hxv hyv p hp).2)

/-- C09, `*`. -/
theorem C09_mul_exact (x y : DVal) (hsg : x.dt.signed = y.dt.signed) (hx0 : 0 < x.dt.bits)
    (hx : x.dt.bits ≤ 32) (hy : y.dt.bits ≤ 32) (hlen : x.vals.length = y.vals.length)
    (hxv : AllRepresentable x.dt.signed x.dt.bits x.vals)
    (hyv : AllRepresentable y.dt.signed y.dt.bits y.vals) :
    ∃ r, x.mul (.dtype y) = some r ∧ Elementwise (· * ·) x.vals y.vals r.vals ∧
      AllRepresentable r.dt.signed r.dt.bits r.vals :=
  arith_exact _ x y hsg hx0 hx hy hlen hxv hyv (fun p hp =>
    rep_mul (lt_of_lt_of_le hx0 (Nat.le_max_left _ _)) (rep_of_zip hsg hxv hyv p hp).1
      (rep_of_zip hsg hxv hyv p hp).2)

/-- C09, `-`: exact for signed operands, and for unsigned ones whose difference is not negative. -/
theorem C09_sub_exact (x y : DVal) (hsg : x.dt.signed = y.dt.signed) (hx0 : 0 < x.dt.bits)
    (hx : x.dt.bits ≤ 32) (hy : y.dt.bits ≤ 32) (hlen : x.vals.length = y.vals.length)
    (hxv : AllRepresentable x.dt.signed x.dt.bits x.vals)
    (hyv : AllRepresentable y.dt.signed y.dt.bits y.vals)
    (hnn : x.dt.signed = true ∨ ∀ p ∈ List.zip x.vals y.vals, p.2 ≤ p.1) :
    ∃ r, x.sub (.dtype y) = some r ∧ Elementwise (· - ·) x.vals y.vals r.vals ∧
      AllRepresentable r.dt.signed r.dt.bits r.vals :=
  arith_exact _ x y hsg hx0 hx hy hlen hxv hyv (fun p hp =>
    rep_sub (lt_of_lt_of_le hx0 (Nat.le_max_left _ _)) (rep_of_zip hsg hxv hyv p hp).1
      (rep_of_zip hsg hxv hyv p hp).2 (hnn.imp id (fun h => h p hp)))

/-- Concrete case: int8 operands whose product needs int16, and a sum that stays int8. -/
example : (DVal.mk [-128, 100] ⟨true, 8⟩).mul (.dtype ⟨[-128, 2], ⟨true, 8⟩⟩) =
      some ⟨[16384, 200], ⟨true, 16⟩⟩ ∧
    (DVal.mk [-100, 27] ⟨true, 8⟩).add (.dtype ⟨[-28, 100], ⟨true, 8⟩⟩) =
      some ⟨[-128, 127], ⟨true, 8⟩⟩ ∧
    (DVal.mk [5] ⟨false, 8⟩).sub (.dtype ⟨[3], ⟨false, 16⟩⟩) = some ⟨[2], ⟨false, 16⟩⟩ := by
  decide +kernel

/-- C09: a literal right operand is accepted by `+` (as a value of the same dtype) but `-` and `*` always raise. -/
theorem C09_literals (x : DVal) (l : List ℤ) :
    x.add (.literal l) = x.add (.dtype ⟨l, x.dt⟩) ∧ x.sub (.literal l) = none ∧ x.mul (.literal l) = none :=
  ⟨rfl, rfl, rfl⟩

/-- C09, failing domain: 64-bit operands wrap, mixed signedness can be labelled with a dtype that cannot hold
the value, and negative unsigned differences wrap. -/
theorem C09_counterexamples :
    (DVal.mk [9223372036854775807] ⟨true, 64⟩).add (.dtype ⟨[1], ⟨true, 64⟩⟩) =
      some ⟨[-9223372036854775808], ⟨true, 64⟩⟩ ∧
    ((DVal.mk [190] ⟨false, 8⟩).add (.dtype ⟨[10], ⟨true, 8⟩⟩) = some ⟨[200], ⟨true, 8⟩⟩ ∧
      ¬ Representable true 8 200) ∧
    (DVal.mk [3] ⟨false, 8⟩).sub (.dtype ⟨[5], ⟨false, 8⟩⟩) = some ⟨[65534], ⟨false, 16⟩⟩ := by
  refine ⟨by decide +kernel, ⟨by decide +kernel, ?_⟩, by decide +kernel⟩
  unfold Representable; decide

/-- C09, broadcasting: a one-element operand acts as if repeated, operand order kept; other length mismatches raise. -/
theorem C09_broadcast (op : ℤ → ℤ → ℤ) (x y : DVal) :
    (∀ v, y.vals = [v] → DVal.arith op x y = DVal.arith op x ⟨List.replicate x.vals.length v, y.dt⟩) ∧
      (∀ v, x.vals = [v] → DVal.arith op x y = DVal.arith op ⟨List.replicate y.vals.length v, x.dt⟩ y) ∧
      (x.vals.length ≠ y.vals.length → x.vals.length ≠ 1 → y.vals.length ≠ 1 → DVal.arith op x y = none) := by
  have zr : ∀ (l : List ℤ) (v : ℤ), List.zip l (List.replicate l.length v) = l.map (fun x => (x, v)) := by
    intro l v
    induction l with
    | nil => rfl
    | cons a l ih => simp [List.replicate_succ, ih]
  have zl : ∀ (l : List ℤ) (v : ℤ), List.zip (List.replicate l.length v) l = l.map (fun y => (v, y)) := by
    intro l v
    induction l with
    | nil => rfl
    | cons a l ih => simp [List.replicate_succ, ih]
  have br : ∀ (xs : List ℤ) (v : ℤ), bcastPairs xs [v] = some (xs.map (fun x => (x, v))) := by
    intro xs v
    unfold bcastPairs
    split_ifs with h
    · match xs, h with
      | [x], _ => rfl
    · rfl
  have bl : ∀ (ys : List ℤ) (v : ℤ), bcastPairs [v] ys = some (ys.map (fun y => (v, y))) := by
    intro ys v
    unfold bcastPairs
    split_ifs with h
    · match ys, h with
      | [y], _ => rfl
    · match ys, h with
      | [], _ => rfl
      | _ :: _ :: _, _ => rfl
  have be : ∀ (xs ys : List ℤ), xs.length = ys.length → bcastPairs xs ys = some (List.zip xs ys) := by
    intro xs ys h
    unfold bcastPairs
    rw [if_pos h]
  refine ⟨?_, ?_, ?_⟩
  · intro v hv
    unfold DVal.arith
    have e : bcastPairs (x.vals.map (x.dt.larger y.dt).double.wrap) (y.vals.map (x.dt.larger y.dt).double.wrap) =
        bcastPairs (x.vals.map (x.dt.larger y.dt).double.wrap)
          ((List.replicate x.vals.length v).map (x.dt.larger y.dt).double.wrap) := by
      rw [hv, List.map_replicate, List.map_singleton, br]
      have := zr (x.vals.map (x.dt.larger y.dt).double.wrap) ((x.dt.larger y.dt).double.wrap v)
      rw [List.length_map] at this
      rw [be _ _ (by simp), this]
    simp only [e]
  · intro v hv
    unfold DVal.arith
    have e : bcastPairs (x.vals.map (x.dt.larger y.dt).double.wrap) (y.vals.map (x.dt.larger y.dt).double.wrap) =
        bcastPairs ((List.replicate y.vals.length v).map (x.dt.larger y.dt).double.wrap)
          (y.vals.map (x.dt.larger y.dt).double.wrap) := by
      rw [hv, List.map_replicate, List.map_singleton, bl]
      have := zl (y.vals.map (x.dt.larger y.dt).double.wrap) ((x.dt.larger y.dt).double.wrap v)
      rw [List.length_map] at this
      rw [be _ _ (by simp), this]
    simp only [e]
  · intro h1 h2 h3
    have e : bcastPairs (x.vals.map (x.dt.larger y.dt).double.wrap) (y.vals.map (x.dt.larger y.dt).double.wrap) =
        none := by
      unfold bcastPairs
      rw [if_neg (by simpa using h1)]
      have l1 : (x.vals.map (x.dt.larger y.dt).double.wrap).length ≠ 1 := by simpa using h2
      have l2 : (y.vals.map (x.dt.larger y.dt).double.wrap).length ≠ 1 := by simpa using h3
      obtain ⟨xs, hxs⟩ : ∃ xs, xs = x.vals.map (x.dt.larger y.dt).double.wrap := ⟨_, rfl⟩
      obtain ⟨ys, hys⟩ : ∃ ys, ys = y.vals.map (x.dt.larger y.dt).double.wrap := ⟨_, rfl⟩
      rw [← hxs] at l1 ⊢
      rw [← hys] at l2 ⊢
      match ys, xs, l1, l2 with
      | [], [], _, _ => rfl
      | [], _ :: _ :: _, _, _ => rfl
      | _ :: _ :: _, [], _, _ => rfl
      | _ :: _ :: _, _ :: _ :: _, _, _ => rfl
      | [_], _, _, h => exact absurd rfl h
      | _, [_], h, _ => exact absurd rfl h
    unfold DVal.arith
    simp only [e]

example : (DVal.mk [10, 20] ⟨true, 8⟩).sub (.dtype ⟨[3], ⟨true, 8⟩⟩) = some ⟨[7, 17], ⟨true, 8⟩⟩ ∧
    (DVal.mk [3] ⟨true, 8⟩).sub (.dtype ⟨[10, 20], ⟨true, 8⟩⟩) = some ⟨[-7, -17], ⟨true, 8⟩⟩ ∧
    (DVal.mk [1, 2, 3] ⟨true, 8⟩).sub (.dtype ⟨[10, 20], ⟨true, 8⟩⟩) = none := by
  decide +kernel

theorem arith_single (op : ℤ → ℤ → ℤ) (x y : ℤ) (d e : NDtype) (v : ℤ)
    (hv : v = clip (d.larger e).double.min (d.larger e).double.max
      ((d.larger e).double.wrap (op ((d.larger e).double.wrap x) ((d.larger e).double.wrap y)))) :
    DVal.arith op ⟨[x], d⟩ ⟨[y], e⟩ =
      some ⟨[v], if v > d.max ∨ v < d.min then (d.larger e).double else d.larger e⟩ := by
  subst hv
  unfold DVal.arith bcastPairs
  simp only [List.map_cons, List.map_nil, List.length_cons, List.length_nil, if_true, List.zip_cons_cons,
    List.zip_nil_right, List.any_cons, List.any_nil, Bool.or_false, Bool.or_eq_true, decide_eq_true_eq]

/-- C09, failing domain in general: an unsigned difference that should be negative comes back as
`2 ^ (2 * bits) + x - y`. -/
theorem C09_negative_unsigned (b : ℕ) (hb : 0 < b) (hb' : b ≤ 32) (x y : ℤ) (hx : 0 ≤ x) (hxy : x < y)
    (hy : y ≤ 2 ^ b - 1) :
    (DVal.mk [x] ⟨false, b⟩).sub (.dtype ⟨[y], ⟨false, b⟩⟩) =
      some ⟨[2 ^ (b * 2) + x - y], ⟨false, b * 2⟩⟩ := by
  have hp : (2 : ℤ) ≤ 2 ^ b := by
    calc (2 : ℤ) = 2 ^ 1 := by norm_num
      _ ≤ 2 ^ b := pow_le_pow_right₀ (by norm_num) hb
  have hpp : (2 : ℤ) ^ (b * 2) = 2 ^ b * 2 ^ b := by ring
  have hbig : 2 * (2 : ℤ) ^ b ≤ 2 ^ (b * 2) := by rw [hpp]; nlinarith
  have hmin : Nat.min 64 (b * 2) = b * 2 := min_eq_right (by omega)
  obtain ⟨P, hP⟩ : ∃ P, P = (2 : ℤ) ^ (b * 2) := ⟨_, rfl⟩
  obtain ⟨Q, hQ⟩ : ∃ Q, Q = (2 : ℤ) ^ b := ⟨_, rfl⟩
  have w1 : ∀ v : ℤ, 0 ≤ v → v < P → wrapU (b * 2) v = v := by
    intro v h0 h1
    unfold wrapU
    rw [← hP]
    exact Int.emod_eq_of_lt h0 h1
  have w2 : wrapU (b * 2) (x - y) = P + x - y := by
    unfold wrapU
    rw [← hP, ← Int.add_emod_right, Int.emod_eq_of_lt (by rw [← hP, ← hQ] at hbig; rw [← hQ] at hy; omega) (by omega)]
    ring
  rw [← hP, ← hQ] at hbig
  rw [← hQ] at hy hp
  have e : (DVal.mk [x] ⟨false, b⟩).sub (.dtype ⟨[y], ⟨false, b⟩⟩) =
    DVal.arith (fun a b => a - b) ⟨[x], ⟨false, b⟩⟩ ⟨[y], ⟨false, b⟩⟩ := rfl
  have hl : (⟨false, b⟩ : NDtype).larger ⟨false, b⟩ = ⟨false, b⟩ := by unfold NDtype.larger; simp
  have hdb : (⟨false, b⟩ : NDtype).double = ⟨false, b * 2⟩ := by unfold NDtype.double; rw [hmin]
  rw [e, arith_single _ x y _ _ (P + x - y), hl, hdb, hP, if_pos]
  · left
    show (2 : ℤ) ^ b - 1 < _
    rw [← hQ, ← hP]
    omega
  · rw [hl, hdb]
    show _ = clip 0 ((2 : ℤ) ^ (b * 2) - 1) (wrapU (b * 2) (wrapU (b * 2) x - wrapU (b * 2) y))
    rw [w1 x hx (by omega), w1 y (by omega) (by omega), w2, ← hP, clip_of_mem (by omega) (by omega)]

/-- C09, failing domain in general: 64-bit results wrap around, the label stays 64 bits. -/
theorem C09_64_bit_wraps (op : ℤ → ℤ → ℤ) (x y : ℤ) (hx : Representable true 64 x) (hy : Representable true 64 y) :
    ∃ v : ℤ, DVal.arith op (DVal.mk [x] ⟨true, 64⟩) (DVal.mk [y] ⟨true, 64⟩) = some ⟨[v], ⟨true, 64⟩⟩ ∧
      Representable true 64 v ∧ (2 ^ 64 : ℤ) ∣ op x y - v := by
  have wx : wrapS 64 x = x := by
    unfold Representable at hx
    simp only [if_true] at hx
    exact wrapS_of_mem (b := 63) (by norm_num at hx ⊢; omega) (by norm_num at hx ⊢; omega)
  have wy : wrapS 64 y = y := by
    unfold Representable at hy
    simp only [if_true] at hy
    exact wrapS_of_mem (b := 63) (by norm_num at hy ⊢; omega) (by norm_num at hy ⊢; omega)
  obtain ⟨z, hz⟩ : ∃ z, z = op x y := ⟨_, rfl⟩
  have hr : -(2 ^ 63) ≤ wrapS 64 z ∧ wrapS 64 z ≤ 2 ^ 63 - 1 ∧ (2 ^ 64 : ℤ) ∣ z - wrapS 64 z := by
    have b1 := Int.le_bmod (x := z) (m := 2 ^ 64) (by norm_num)
    have b2 := Int.bmod_lt (x := z) (m := 2 ^ 64) (by norm_num)
    have b3 : (2 ^ 64 : ℤ) ∣ z - Int.bmod z (2 ^ 64) := by
      have := Int.dvd_self_sub_bmod (x := z) (m := 2 ^ 64)
      simpa using this
    unfold wrapS
    norm_num at b1 b2 b3 ⊢
    exact ⟨by omega, by omega, b3⟩
  have hl : (⟨true, 64⟩ : NDtype).larger ⟨true, 64⟩ = ⟨true, 64⟩ := rfl
  have hdb : (⟨true, 64⟩ : NDtype).double = ⟨true, 64⟩ := rfl
  refine ⟨wrapS 64 z, ?_, ?_, by rw [← hz]; exact hr.2.2⟩
  · rw [arith_single op x y _ _ (wrapS 64 z), hl, hdb, ite_self]
    rw [hl, hdb]
    show _ = clip (-(2 ^ 63)) (2 ^ 63 - 1) (wrapS 64 (op (wrapS 64 x) (wrapS 64 y)))
    rw [wx, wy, ← hz, clip_of_mem hr.1 hr.2.1]
  · unfold Representable
    simp only [if_true]
    norm_num at hr ⊢
    omega

/-- C09, failing domain in general: an unsigned plus a signed value of the same width whose sum fits the unsigned but not
the signed range is labelled with the signed dtype, which cannot hold it. -/
theorem C09_mixed_sign_label (b : ℕ) (hb : 0 < b) (hb' : b ≤ 32) (x y : ℤ) (hx : Representable false b x)
    (hy : Representable true b y) (h1 : 2 ^ (b - 1) ≤ x + y) (h2 : x + y ≤ 2 ^ b - 1) :
    (DVal.mk [x] ⟨false, b⟩).add (.dtype ⟨[y], ⟨true, b⟩⟩) = some ⟨[x + y], ⟨true, b⟩⟩ ∧
      ¬ Representable true b (x + y) := by
  obtain ⟨k, rfl⟩ : ∃ k, b = k + 1 := ⟨b - 1, by omega⟩
  have hmin : Nat.min 64 ((k + 1) * 2) = (2 * k + 1) + 1 := by
    have : Nat.min 64 ((k + 1) * 2) = (k + 1) * 2 := min_eq_right (by omega)
    rw [this]; ring
  have hp : (1 : ℤ) ≤ 2 ^ k := one_le_pow₀ (by norm_num)
  have hq : (2 : ℤ) ^ (k + 1) = 2 * 2 ^ k := by ring
  have hP : (2 : ℤ) ^ (2 * k + 1) = 2 * (2 ^ k * 2 ^ k) := by ring
  have hbig : 2 * (2 : ℤ) ^ k ≤ 2 ^ (2 * k + 1) := by rw [hP]; nlinarith
  unfold Representable at hx hy ⊢
  simp only [Nat.add_sub_cancel, Bool.false_eq_true, if_false, if_true] at hx hy h1 ⊢
  rw [hq] at hx h2
  have w : ∀ v : ℤ, -(2 ^ (2 * k + 1)) ≤ v → v ≤ 2 ^ (2 * k + 1) - 1 → wrapS (2 * k + 1 + 1) v = v :=
    fun v a b => wrapS_of_mem (b := 2 * k + 1) a (by omega)
  obtain ⟨Q, hQ⟩ : ∃ Q, Q = (2 : ℤ) ^ k := ⟨_, rfl⟩
  obtain ⟨P, hPP⟩ : ∃ P, P = (2 : ℤ) ^ (2 * k + 1) := ⟨_, rfl⟩
  rw [← hPP] at hbig w
  rw [← hQ] at hx hy h1 h2 hbig ⊢
  constructor
  · have e : (DVal.mk [x] ⟨false, k + 1⟩).add (.dtype ⟨[y], ⟨true, k + 1⟩⟩) =
      DVal.arith (fun a b => a + b) ⟨[x], ⟨false, k + 1⟩⟩ ⟨[y], ⟨true, k + 1⟩⟩ := rfl
    have hl : (⟨false, k + 1⟩ : NDtype).larger ⟨true, k + 1⟩ = ⟨true, k + 1⟩ := by unfold NDtype.larger; simp
    have hdb : (⟨true, k + 1⟩ : NDtype).double = ⟨true, 2 * k + 1 + 1⟩ := by unfold NDtype.double; rw [hmin]
    rw [e, arith_single _ x y _ _ (x + y), hl, if_neg]
    · rw [not_or]
      show ¬ ((2 : ℤ) ^ (k + 1) - 1 < _) ∧ ¬ (_ < (0 : ℤ))
      rw [hq, ← hQ]
      omega
    · rw [hl, hdb]
      show _ = clip (-((2 : ℤ) ^ (2 * k + 1))) ((2 : ℤ) ^ (2 * k + 1) - 1) (wrapS (2 * k + 1 + 1)
        (wrapS (2 * k + 1 + 1) x + wrapS (2 * k + 1 + 1) y))
      rw [w x (by omega) (by omega), w y (by omega) (by omega), w (x + y) (by omega) (by omega), ← hPP,
        clip_of_mem (by omega) (by omega)]
  · omega

example : (DVal.mk [190] ⟨false, 8⟩).add (.dtype ⟨[10], ⟨true, 8⟩⟩) = some ⟨[200], ⟨true, 8⟩⟩ :=
  (C09_mixed_sign_label 8 (by norm_num) (by norm_num) 190 10 (by unfold Representable; norm_num)
    (by unfold Representable; norm_num) (by norm_num) (by norm_num)).1

/-! ## C10 -/

theorem helper_exact {k : ℕ} {x y : ℤ} (hx : Representable true (k + 1) x)
    (hy : Representable true (k + 1) y) :
    wrapS ((k + 1) * 2) (wrapS ((k + 1) * 2) x * wrapS ((k + 1) * 2) y) = x * y ∧
    wrapS ((k + 1) * 2) (wrapS ((k + 1) * 2) x + wrapS ((k + 1) * 2) y) = x + y := by
  have w : ∀ v, Representable true ((k + 1) * 2) v → wrapS ((k + 1) * 2) v = v := fun v hv =>
    NDtype.wrap_of_rep (d := ⟨true, (k + 1) * 2⟩) (by simp) hv
  rw [w x (rep_mono (by omega) hx), w y (rep_mono (by omega) hy)]
  exact ⟨w _ (rep_mul (by omega) hx hy), w _ (rep_add (by omega) hx hy)⟩

/-- C10.  The fixed-width helpers are exact on all inputs of the named width. -/
theorem C10_helpers_exact :
    (∀ x y, Representable true 8 x → Representable true 8 y →
      int8Mul x y = x * y ∧ int8Add x y = x + y) ∧
    (∀ x y, Representable true 16 x → Representable true 16 y →
      int16Mul x y = x * y ∧ int16Add x y = x + y) ∧
    (∀ x y, Representable true 32 x → Representable true 32 y →
      int32Mul x y = x * y ∧ int32Add x y = x + y) :=
  ⟨fun _ _ hx hy => helper_exact (k := 7) hx hy, fun _ _ hx hy => helper_exact (k := 15) hx hy,
   fun _ _ hx hy => helper_exact (k := 31) hx hy⟩

/-- The extreme case meets the hypotheses; one past the width the helper wraps (so the width matters). -/
example : Representable true 8 (-128) ∧ int8Mul (-128) (-128) = 16384 ∧ int8Mul 255 255 ≠ 255 * 255 := by
  refine ⟨by unfold Representable; decide, by decide +kernel, by decide +kernel⟩

end Verif
