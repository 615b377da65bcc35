import Verif.Props.RealSoftmax

/-!
# Property C113, recurrent classifiers
-/

namespace Verif
open Spec Keras

namespace RealSoftmax

theorem forward_linear (l : KDense) (hact : upper l.actName = "SOFTMAX".toList) (ls : List KLayer) (x : List ℝ) :
    realForward (ls ++ [.dense l]) x = realForward (ls ++ [.dense { l with actName := "linear" }]) x := by
  induction ls generalizing x with
  | nil =>
    have e : realAct l.actName = id := by
      unfold realAct
      rw [hact]
      rw [if_neg (by decide), if_neg (by decide), if_neg (by decide), if_neg (by decide)]
    have e' : realAct "linear" = id := by
      unfold realAct
      rw [if_neg (by decide), if_neg (by decide), if_neg (by decide), if_neg (by decide)]
    simp only [List.nil_append, realForward, e, e']
    rfl
  | cons k ls ih => cases k <;> exact ih _

theorem seq_linear (l : KDense) (hact : upper l.actName = "SOFTMAX".toList) (ls : List KLayer) (x : List (List ℝ)) :
    realSeqForward (ls ++ [.dense l]) x = realSeqForward (ls ++ [.dense { l with actName := "linear" }]) x := by
  induction ls generalizing x with
  | nil => rfl
  | cons k ls ih =>
    cases k with
    | lstm c =>
      simp only [List.cons_append, realSeqForward]
      split_ifs
      · exact ih _
      · exact forward_linear l hact _ _
    | _ => exact ih _

end RealSoftmax

open RealSoftmax RealClasses

/-- **C113 (recurrent Keras classifiers).**  A recurrent Keras model whose last layer has a softmax activation.  Its scores are the
outputs of the same model with a linear last layer; a class that, over the real numbers, outweighs the others by C110's bounds on the
scores is the one the quantized network predicts. -/
theorem C113_recurrent (ext : Ext) (η : ℝ) (hext : ExtClose ext η) (F : Formats) (h1 : ∀ d, Ieee (F.data d))
    (h2 : ∀ d, Ieee (F.weight d)) (h3 : Ieee F.product) (K : FloatKeras) (cfg : Cfg) (X : Arr ℚ) (ls : List KLayer) (l : KDense)
    (hact : upper l.actName = "SOFTMAX".toList) (n : ℕ)
    (hm : RecurrentModel cfg n (ls ++ [.dense l])) (hq : NamesType cfg.quantizeDtype "int" 8) (δ : ℚ)
    (ha : ActsOk K.act δ (ls ++ [.dense l])) (hr : TargetsClose η (ls ++ [.dense l]))
    (hs : ∀ a, |K.sigmoid a - ext.sigmoid a| ≤ δ) (ht : ∀ a, |K.tanh a - ext.tanh a| ≤ δ)
    (hsl : ∀ a b, |ext.sigmoid a - ext.sigmoid b| ≤ |a - b|) (htl : ∀ a b, |ext.tanh a - ext.tanh b| ≤ |a - b|)
    (hlip : ∀ k, KLayer.dense k ∈ ls ++ [.dense l] → ∀ a b, |target k a - target k b| ≤ |a - b|) (g : List OpJ)
    (h : (Arith.float F K).graph cfg X (ls ++ [.dense l]) = some g) (hg : FileFactors g) (bs : List LstmBudget)
    (hbs : LstmPlans ext F.product.fl δ (ls ++ [.dense l]) g bs) :
    ∃ s z rs fs, SeqNetMeans ext (exportJson g) s z rs fs ∧ rs.map (·.l) = lstmLayers (ls ++ [.dense l]) ∧ rs.map (·.b) = bs ∧
      ∃ N, Fmt.f64.load (exportJson g) = some N ∧
        ∀ (B : List (List (List ℚ))) (T : ℕ), B ≠ [] → 0 < T →
          (∀ x ∈ B, x.length = T ∧ (∀ r ∈ x, r.length = n) ∧
            ∃ e, (∀ r ∈ x, ∀ v ∈ inputBound s z r, v ≤ e) ∧ recInRange ext e rs x) →
          ∃ Y rec, Fmt.f64.infer ext N (.flt (.cube B)) = some (.flt (.mat Y), rec) ∧
            List.Forall₂ (fun (y : List ℚ) (x : List (List ℚ)) => ∀ c,
              Outweighs (realSeqForward (ls ++ [.dense { l with actName := "linear" }]) (x.map (fun r => r.map (↑))))
                (List.zipWith (· + ·) ((List.zipWith (· + ·)
                  (outputBound (fileExact fs (recExact ext rs x)) (fileBound fs (recExact ext rs x) (recBound T rs)))
                  (drift F.product.fl fs (denseLayers (ls ++ [.dense l])) (recExact ext rs x)
                    ((recExact ext rs x).map (fun _ => 0)))).map (↑))
                  (seqDrift η (ls ++ [.dense l]) x.length 0)) c →
              Predicts y c ∧
                RealLikely (realSeqForward (ls ++ [.dense { l with actName := "linear" }]) (x.map (fun r => r.map (↑)))) c) Y B := by
  obtain ⟨s, z, rs, fs, c1, -, c3, c4, -, N, n1, n2⟩ :=
    C110_accuracy ext η hext F h1 h2 h3 K cfg X _ n hm hq δ ha hr hs ht hsl htl hlip g h hg bs hbs
  refine ⟨s, z, rs, fs, c1, c3, c4, N, n1, fun B T hB hT hx => ?_⟩
  obtain ⟨Y, rec, a, b⟩ := n2 B T hB hT hx
  refine ⟨Y, rec, a, b.imp (fun y x hw c hc => ?_)⟩
  rw [seq_linear l hact] at hw
  exact ⟨(decides hw).2.1 c ((outweighs_iff _ _ _).mp hc), likely_of hw hc⟩

namespace C113Case
open C52Case (ext lstm shape)
open C83Case (X)
open C95Case (formats)
open C97Case (keras budget opCheck plan clip_lip range_means)

/-- The LSTM layer of `C97Case` and a classifier with two classes. -/
def hidden : List KLayer := [.lstm lstm, .dropout]

def head : KDense := ⟨"d", 2, [[3, -2]], none, "softmax", id⟩

/-- As `C97Case.check`. -/
def check : Bool :=
  match (Arith.float formats keras).graph {} (.cube X) (hidden ++ [.dense head]) with
  | none => false
  | some g => decide (∀ p ∈ g.filterMap (fun op => if op.opType = "FULLY_CONNECTED" then fcParams op else none),
        1 / 2 ^ 40 ≤ p.1 * p.2.1 ∧ 1 / 999999 ≤ p.1 * p.2.1 / p.2.2.1 ∧ p.1 * p.2.1 / p.2.2.1 ≤ 2 ^ 29) &&
    decide (((g[0]?).bind (fun q => q.outputs[0]?)).map (fun o => (o.scale, o.zeroPoint)) = some (some budget.sIn, some (-77))) &&
    match lstmOps g with
    | [op] => opCheck op
    | _ => false

theorem checked : check = true := by decide +kernel

theorem target_head (y : ℚ) : target head y = y := by unfold target; exact if_pos (by decide)

theorem targets : TargetsClose (1 / 4) (hidden ++ [.dense head]) := by
  intro l hl a
  simp only [hidden, List.cons_append, List.nil_append, List.mem_cons, KLayer.dense.injEq, reduceCtorEq, false_or, List.not_mem_nil,
    or_false] at hl
  subst hl
  have e2 : realAct "softmax" = id := by
    unfold realAct
    rw [if_neg (by decide), if_neg (by decide), if_neg (by decide), if_neg (by decide)]
  have e3 : actErr (1 / 4) "softmax" = 0 := by unfold actErr; exact if_neg (by decide)
  show |((target head a : ℚ) : ℝ) - realAct "softmax" a| ≤ actErr (1 / 4) "softmax"
  rw [target_head, e2, e3]
  simp

/-- All hypotheses of `C113_recurrent` hold, and its conclusion covers the calibration sequences. -/
example : ∃ g, (Arith.float formats keras).graph {} (.cube X) (hidden ++ [.dense head]) = some g ∧
    ∃ rs fs N Y rec, Fmt.f64.load (exportJson g) = some N ∧
      Fmt.f64.infer ext N (.flt (.cube X)) = some (.flt (.mat Y), rec) ∧
        List.Forall₂ (fun (y : List ℚ) (x : List (List ℚ)) => ∀ c,
          Outweighs (realSeqForward (hidden ++ [.dense { head with actName := "linear" }]) (x.map (fun r => r.map (↑))))
            (List.zipWith (· + ·) ((List.zipWith (· + ·)
              (outputBound (fileExact fs (recExact ext rs x)) (fileBound fs (recExact ext rs x) (recBound 1 rs)))
              (drift Fmt.f32.fl fs (denseLayers (hidden ++ [.dense head])) (recExact ext rs x)
                ((recExact ext rs x).map (fun _ => 0)))).map (↑))
              (seqDrift (1 / 4) (hidden ++ [.dense head]) x.length 0)) c →
          Predicts y c ∧
            RealLikely (realSeqForward (hidden ++ [.dense { head with actName := "linear" }]) (x.map (fun r => r.map (↑)))) c) Y X := by
  have hc := checked
  unfold check at hc
  cases hg : (Arith.float formats keras).graph {} (.cube X) (hidden ++ [.dense head]) with
  | none => rw [hg] at hc; cases hc
  | some g =>
    rw [hg] at hc
    simp only [Bool.and_eq_true, decide_eq_true_eq] at hc
    obtain ⟨⟨hsc, hsz⟩, hc⟩ := hc
    refine ⟨g, rfl, ?_⟩
    cases ho : lstmOps g with
    | nil => rw [ho] at hc; cases hc
    | cons op rest =>
      cases rest with
      | cons a b => rw [ho] at hc; cases hc
      | nil =>
      rw [ho] at hc
      change opCheck op = true at hc
      have hint : Int8Layers {} 1 [.dropout, .dense head] := by
        refine ⟨⟨rfl, by norm_num, by norm_num [head], by simp [head]⟩, by norm_num, ?_, by decide, fun h => absurd h (by decide), trivial⟩
        intro c hc
        rw [show Cfg.denseFor {} head.name = some {} from rfl, Option.some.injEq] at hc
        subst hc
        refine ⟨?_, ?_, ?_, ?_⟩ <;> (unfold NamesType; decide +kernel)
      have hdense : ∀ l, KLayer.dense l ∈ hidden ++ [.dense head] → l = head := by
        intro l hl
        simp only [hidden, List.cons_append, List.nil_append, List.mem_cons, KLayer.dense.injEq, reduceCtorEq, false_or, List.not_mem_nil, or_false] at hl
        exact hl
      have hff : FileFactors g := by
        intro op hop sx sw so zo ht hp
        have hm : (sx, sw, so, zo) ∈ g.filterMap (fun op => if op.opType = "FULLY_CONNECTED" then fcParams op else none) :=
          List.mem_filterMap.mpr ⟨op, hop, by rw [if_pos ht, hp]⟩
        obtain ⟨b1, b2, b3⟩ := hsc _ hm
        have h126 : (2 : ℚ) ^ (-126 : ℤ) ≤ 2 ^ (-40 : ℤ) := zpow_le_zpow_right₀ (by norm_num) (by norm_num)
        have h40 : (2 : ℚ) ^ (-40 : ℤ) = 1 / 2 ^ 40 := by rw [zpow_neg]; norm_num
        rw [h40] at h126
        exact ⟨h126.trans b1, b2, b3⟩
      obtain ⟨s, z, rs, fs, m, e1, e2, N, n1, n2⟩ := C113_recurrent ext (1 / 4) C110Case.close formats (fun _ => .inl rfl)
        (fun _ => .inl rfl) (.inl rfl) keras {} (.cube X) hidden head (by decide) 1 ⟨shape, rfl, by rw [if_neg (by decide)]; exact hint⟩ (by unfold NamesType; decide +kernel) 0
        (by
          intro l hl
          obtain rfl := hdense l hl
          exact ⟨fun a => by simp [keras, C95Case.act], fun h => absurd h (by decide)⟩)
        targets (fun a => by simp [keras]) (fun a => by simp [keras])
        (fun a b => clip_lip (fun x => x / 4 + 1 / 2) (fun a b => by
          rw [show a / 4 + 1 / 2 - (b / 4 + 1 / 2) = 1 / 4 * (a - b) by ring, abs_mul, abs_of_nonneg (by norm_num)]
          linarith [abs_nonneg (a - b)]) a b)
        (fun a b => clip_lip (fun x => x) (fun a b => le_rfl) a b)
        (by
          intro l hl a b
          obtain rfl := hdense l hl
          have e : ∀ y, target head y = y := target_head
          rw [e, e])
        g hg hff [budget] (by
          unfold LstmPlans
          rw [ho]
          exact .cons (plan hc) .nil)
      have hr : ∃ r, rs = [r] ∧ r.l = lstm ∧ r.b = budget := by
        cases rs with
        | nil => cases e2
        | cons r rs =>
          cases rs with
          | nil =>
            simp only [List.map_cons, List.map_nil, List.cons.injEq, and_true] at e1 e2
            exact ⟨r, rfl, (List.cons.inj e1).1, e2⟩
          | cons a b => simp at e2
      obtain ⟨r, rfl, hrl, hrb⟩ := hr
      have hL : LSTM.fromModel op = some r.L ∧ s = budget.sIn ∧ z = -77 := by
        obtain ⟨-, -, -, q, lops, ops, d, hgr, ⟨-, -, o, rest, ho1, ⟨ho2, ho3⟩, -⟩, hlo, -⟩ := m
        change g = _ at hgr
        rw [hgr] at hsz ho
        simp only [List.cons_append, List.getElem?_cons_zero, Option.bind_some, ho1, Option.map_some, Option.some.injEq,
          Prod.mk.injEq, ho2, ho3] at hsz
        refine ⟨?_, hsz.1, hsz.2⟩
        cases hlo with
        | cons hl1 hl2 =>
          cases hl2
          rename_i lop
          have : lop ∈ lstmOps (q :: ([lop] ++ ops) ++ [d]) := by
            unfold lstmOps
            rw [List.mem_filter]
            exact ⟨by simp, by rw [hl1.kind]; rfl⟩
          rw [ho, List.mem_singleton] at this
          rw [← this]; exact hl1.load
      obtain ⟨Y, rec, y1, y2⟩ := n2 X 1 (by decide) (by decide) (by
        obtain ⟨hL, rfl, rfl⟩ := hL
        have hx : ∀ x ∈ X, x.length = 1 ∧ (∀ r ∈ x, r.length = 1) ∧ ∀ r ∈ x, ∀ v ∈ inputBound budget.sIn (-77) r, v ≤ 1 / 100 := by
          decide +kernel
        unfold opCheck at hc
        rw [hL] at hc
        simp only [Bool.and_eq_true] at hc
        have hr := List.all_eq_true.mp hc.2
        intro x hxX
        obtain ⟨a1, a2, a3⟩ := hx x hxX
        refine ⟨a1, a2, 1 / 100, a3, ?_⟩
        unfold recInRange
        rw [hrl, hrb]
        refine ⟨le_rfl, range_means (hr x hxX), max (budget.error 0).1 (budget.error 1).1, ?_, trivial⟩
        intro t ht
        rw [a1] at ht
        rcases Nat.le_one_iff_eq_zero_or_eq_one.mp ht with rfl | rfl
        · exact le_max_left _ _
        · exact le_max_right _ _)
      exact ⟨[r], fs, N, Y, rec, n1, y1, y2⟩

end C113Case

end Verif
