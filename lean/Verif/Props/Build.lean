import Verif.Lemmas.Build

/-!
# Property C70: the whole `build`, with its equalizers
-/

namespace Verif
open Keras Spec Build

/-! ## Specification -/

/-- What of an exported node the equalizers may not touch: shape and dtype of the tensor, presence of a table. -/
def Spec.nodeSkeleton (n : NodeJ) : NodeJ :=
  ⟨none, none, n.tensor.map (fun t => ⟨none, t.shape, t.dtype⟩), n.lut.map (fun _ => ⟨none, none, none⟩)⟩

/-- An exported network without numbers. -/
def Spec.skeleton (n : NetJ) : NetJ :=
  { n with graph := n.graph.map (fun o =>
      { o with inputs := o.inputs.map nodeSkeleton, outputs := o.outputs.map nodeSkeleton }) }

/-- An exported network without the integers of its tensors. -/
def Spec.withoutIntegers (n : NetJ) : NetJ :=
  { n with graph := n.graph.map (fun o =>
      { o with inputs := o.inputs.map (fun n => { n with tensor := n.tensor.map (fun t => { t with data := none }) })
               outputs := o.outputs.map (fun n => { n with tensor := n.tensor.map (fun t => { t with data := none }) }) }) }

/-- Positive scale `s`, zero point in the range of the dtype named in the export. -/
def Spec.GoodParams (n : NodeJ) (s : ℚ) : Prop :=
  n.scale = some s ∧ 0 < s ∧ ∃ z t q, n.zeroPoint = some z ∧ n.tensor = some t ∧
    (GDtype.ofString t.dtype.toList).toOption = some q ∧ q.min ≤ z ∧ z ≤ q.max

/-- What inference needs of a fully-connected operator: good parameters, bias scale = kernel scale × input scale, bias
zero point 0. -/
def Spec.DenseOpOk (op : OpJ) : Prop :=
  ∃ x k b o sx sk so, op.inputs = [x, k, b] ∧ op.outputs = [o] ∧ GoodParams x sx ∧ GoodParams k sk ∧
    GoodParams o so ∧ b.scale = some (sk * sx) ∧ b.zeroPoint = some 0

/-! ## Proof -/

namespace Build

/-- What the state before AdaRound keeps of the state after quantization. -/
structure Mid (w w1 : World) : Prop where
  upd : Upd w w1
  link : ∀ i < w.next, ∀ l ∈ w.hooks i, (w1.nodes l.bias).scale = (w1.nodes l.kernel).scale * (w1.nodes l.input).scale ∧
    (w1.nodes l.bias).zp = 0
  legal : ∀ i < w.next, i ∉ w.biases → Legal (w.nodes i) → Legal (w1.nodes i)

theorem mid_refl {w : World} (hinv : w.Inv) (hc : ∀ i < w.next, Sound (w.nodes i)) : Mid w w :=
  ⟨fun i hi => ⟨_, _, ((hc i hi).1).symm⟩, fun i _ l hl => ⟨hinv.rel i l hl, (hinv.ok i l hl).1⟩, fun _ _ _ h => h⟩

theorem bundle_model {ext : Ext} {cfg : Cfg} {x : Arr ℚ} {ls : List KLayer} {w : World} {rs : List QRes}
    (hls : ∀ l, KLayer.lstm l ∉ ls) (h : quantizeModel ext cfg x ls = some (w, rs)) :
    ∃ ids, bundle rs = some ids ∧ Searchable w ids ∧
      ∀ op ∈ networkOps rs, (∀ r ∈ op.inputs, r.id < w.next) ∧ ∀ r ∈ op.outputs, r.id < w.next := by
  obtain ⟨m1, m2, m3, i, rs', d, o, rfl, hi, hd, ho, hst⟩ := model_stack hls h
  obtain ⟨ids, b1, b2, b3⟩ := bundle_stack hst
  refine ⟨ids, ?_, ⟨?_, fun j hj => ⟨(b3 j hj).2.1, (b3 j hj).2.2.1⟩, fun j hj => (b3 j hj).2.2.2,
    fun j hj _ => (m2 j hj).1⟩, ?_⟩
  · rw [bundle_append, bundle_append, b1]
    have e1 : bundle [i] = some [] := by unfold bundle bundleOf; rw [hi]; rfl
    have e2 : bundle [d] = some [] := by unfold bundle bundleOf; rw [hd]; rfl
    rw [e1, e2]
    simp
  · exact b2.imp (fun h => Nat.ne_of_lt h)
  · intro op hop
    simp only [networkOps, List.flatMap_append, List.flatMap_cons, List.flatMap_nil, List.append_nil, hi, hd,
      List.mem_append, List.mem_singleton] at hop
    rcases hop with (rfl | hop) | rfl
    · simp only [List.not_mem_nil, false_imp_iff, implies_true, List.mem_singleton, forall_eq, true_and]
      exact m3
    · exact stack_refs hst op hop
    · simp only [List.not_mem_nil, false_imp_iff, implies_true, List.mem_singleton, forall_eq, and_true]
      exact ho

theorem equalize_ok {ext : Ext} {cfg : Cfg} {x : Arr ℚ} {ls : List KLayer} {w w1 : World} {rs : List QRes}
    {lossFn : Option SeqNet → ℚ} {draws : List (List ParamEq.Draw)} {c : Config.ParamEqualizerCfg}
    (hls : ∀ l, KLayer.lstm l ∉ ls) (h : quantizeModel ext cfg x ls = some (w, rs))
    (he : equalizeNet lossFn draws c w rs = some w1) :
    lossFn (asSequential w1 rs) ≤ lossFn (asSequential w rs) ∧ Mid w w1 := by
  obtain ⟨ids, b1, b2, b3⟩ := bundle_model hls h
  obtain ⟨m1, m2, -⟩ := model_stack hls h
  unfold equalizeNet at he
  simp only [Option.bind_eq_bind, Option.bind_eq_some_iff, b1, Option.some.injEq, exists_eq_left'] at he
  split_ifs at he with hd
  simp only [Option.bind_eq_some_iff, Option.some.injEq] at he
  obtain ⟨⟨w', c'⟩, ho, rfl⟩ := he
  have hdraw : ∀ ds ∈ draws, MoveDraws ids.length ds := by
    intro ds hds
    have := List.all_eq_true.mp hd ds hds
    simp only [Bool.and_eq_true, beq_iff_eq, List.all_eq_true] at this
    refine ⟨this.1, fun d hdm => ?_⟩
    have := this.2 d hdm
    simp only [drawOk, Bool.and_eq_true, decide_eq_true_eq] at this
    exact this
  obtain ⟨n1, n2, n3, n4, n5, n6, n7, n8, n9, n10, n11, -⟩ :=
    ParamEq.never_worse w m1 ids b2 (cost lossFn w rs) (reads_cost lossFn w rs b3) _ draws hdraw w' c' ho
  have hu : Upd w w' := by
    intro i hi
    refine ⟨(w'.nodes i).scale, (w'.nodes i).zp, ?_⟩
    rw [← n11 i hi]
    exact (n6 i hi (m2 i hi).1).symm
  refine ⟨?_, hu, n7, ?_⟩
  · have e : cost lossFn w rs w'.nodes = lossFn (asSequential w' rs) := rfl
    have e' : cost lossFn w rs w.nodes = lossFn (asSequential w rs) := rfl
    rw [e] at n1
    rw [e'] at n2
    show lossFn (asSequential w' rs) ≤ _
    rw [n1]; exact n2
  · intro i hi hb hl
    show Legal (w'.nodes i)
    by_cases hm : i ∈ ids
    · obtain ⟨g1, g2, g3⟩ := n4 i hm
      obtain ⟨s, z, e⟩ := hu i hi
      have hq : (w'.nodes i).quant = (w.nodes i).quant := by rw [e]; rfl
      refine ⟨g1, ?_, ?_, ?_⟩ <;> rw [hq]
      · exact hl.2.1
      · exact g2
      · exact g3
    · rw [n5 i hi hm hb]; exact hl

/-- What `build` does after quantization. -/
theorem build_cases {ext : Ext} {lossFn : Option SeqNet → ℚ} {qubo : World → List QRes → Option World}
    {draws : List (List ParamEq.Draw)} {cs : List Choices} {cfg : Config.QuantizerCfg} {x : Arr ℚ} {ls : List KLayer}
    {w w' : World} {rs rs' : List QRes} (h : quantizeModel ext cfg.forKeras x ls = some (w, rs))
    (hb : build ext lossFn qubo draws cs cfg x ls = some (w', rs')) :
    rs' = rs ∧ ∃ w1,
      (match cfg.paramEqualizer with
        | none => some w
        | some p => equalizeNet lossFn draws p w rs) = some w1 ∧
      (match cfg.adaRoundNet with
        | none => some w1
        | some a => adaroundNet lossFn qubo cs a w1 rs) = some w' := by
  unfold build Config.build at hb
  rw [h] at hb
  simp only [Option.bind_eq_bind, Option.bind_some, if_true] at hb
  cases hp : cfg.paramEqualizer with
  | none =>
    rw [hp] at hb
    refine ⟨?_, w, rfl, ?_⟩
    all_goals
      cases ha : cfg.adaRoundNet with
      | none =>
        rw [ha] at hb
        simp only [Option.some.injEq, Prod.mk.injEq] at hb
        first | exact hb.2.symm | (rw [hb.1])
      | some a =>
        rw [ha] at hb
        simp only [Option.bind_eq_some_iff, Option.some.injEq, Prod.mk.injEq] at hb
        obtain ⟨w2, h2, rfl, rfl⟩ := hb
        first | rfl | exact h2
  | some p =>
    rw [hp] at hb
    simp only [Option.bind_eq_some_iff] at hb
    obtain ⟨w1, h1, hb⟩ := hb
    cases ha : cfg.adaRoundNet with
    | none =>
      rw [ha] at hb
      simp only [Option.some.injEq, Prod.mk.injEq] at hb
      obtain ⟨rfl, rfl⟩ := hb
      exact ⟨rfl, w1, h1, rfl⟩
    | some a =>
      rw [ha] at hb
      simp only [Option.bind_eq_some_iff, Option.some.injEq, Prod.mk.injEq] at hb
      obtain ⟨w2, h2, rfl, rfl⟩ := hb
      exact ⟨rfl, w1, h1, h2⟩

theorem adaroundNet_loop {lossFn : Option SeqNet → ℚ} {qubo : World → List QRes → Option World} {cs : List Choices}
    {a : Config.AdaCfg} {w w' : World} {rs : List QRes} (hq : a ≠ .qubo)
    (h : adaroundNet lossFn qubo cs a w rs = some w') : ∃ m, adaroundLoop lossFn rs m rs w cs = some w' := by
  unfold adaroundNet at h
  cases a with
  | qubo => exact absurd rfl hq
  | annealer t1 t2 u s m =>
    simp only at h
    split_ifs at h
    exact ⟨_, h⟩
  | base m =>
    simp only at h
    split_ifs at h
    exact ⟨_, h⟩

theorem model_lstm {ext : Ext} {cfg : Cfg} {x : Arr ℚ} {ls : List KLayer} {w : World} {rs : List QRes} (l : KLSTM)
    (hl : KLayer.lstm l ∈ ls) (h : quantizeModel ext cfg x ls = some (w, rs)) :
    ∃ r ∈ rs, ∃ op, r.ops = [op] ∧ op.opType = "LSTM" := by
  unfold quantizeModel at h
  simp only [Option.bind_eq_bind, Option.bind_eq_some_iff, Option.some.injEq, Prod.mk.injEq] at h
  obtain ⟨⟨w0, i⟩, -, ⟨w1, last, rs'⟩, hl', d, -, rfl, rfl⟩ := h
  obtain ⟨r, hr, hop⟩ := lstm_result ls l hl hl'
  exact ⟨r, by simp [hr], hop⟩

theorem targets_model {ext : Ext} {cfg : Cfg} {x : Arr ℚ} {ls : List KLayer} {w w1 : World} {rs : List QRes}
    (hls : ∀ l, KLayer.lstm l ∉ ls) (hsh : ∀ l, KLayer.dense l ∈ ls → ∃ n, ShapeOk l n)
    (h : quantizeModel ext cfg x ls = some (w, rs)) (hu : Upd w w1) :
    ∀ r ∈ rs, ∀ ts, targetsOf w1 r = some ts → ∀ t ∈ ts, TOk w1 t := by
  obtain ⟨m1, m2, m3, i, rs', d, o, rfl, hi, hd, ho, hst⟩ := model_stack hls h
  intro r hr
  simp only [List.mem_append, List.mem_singleton] at hr
  rcases hr with (rfl | hr) | rfl
  · intro ts hts
    unfold targetsOf at hts
    rw [hi] at hts
    have : ts = [] := by
      simp only at hts
      rw [if_neg (by decide), if_neg (by decide)] at hts
      injection hts with hts; exact hts.symm
    simp [this]
  · exact stack_targets hst hu hsh r hr
  · intro ts hts
    unfold targetsOf at hts
    rw [hd] at hts
    have : ts = [] := by
      simp only at hts
      rw [if_neg (by decide), if_neg (by decide)] at hts
      injection hts with hts; exact hts.symm
    simp [this]

/-- Everything about a run of `build` on a model without LSTM layers. -/
theorem build_ok {ext : Ext} {lossFn : Option SeqNet → ℚ} {qubo : World → List QRes → Option World}
    {draws : List (List ParamEq.Draw)} {cs : List Choices} {cfg : Config.QuantizerCfg} {x : Arr ℚ} {ls : List KLayer}
    {w w' : World} {rs rs' : List QRes} (hq : cfg.adaRoundNet ≠ some .qubo) (hls : ∀ l, KLayer.lstm l ∉ ls)
    (hsh : ∀ l, KLayer.dense l ∈ ls → ∃ n, ShapeOk l n)
    (h : quantizeModel ext cfg.forKeras x ls = some (w, rs))
    (hb : build ext lossFn qubo draws cs cfg x ls = some (w', rs')) :
    rs' = rs ∧ ∃ w1, Mid w w1 ∧ Round w1 w' ∧ (cfg.paramEqualizer = none → w1 = w) ∧
      (cfg.adaRoundNet = none → w' = w1) ∧
      lossFn (asSequential w1 rs) ≤ lossFn (asSequential w rs) ∧
      (((∀ s, lossFn s ≠ 0) ∨ ∀ s, lossFn s ≤ 0) → lossFn (asSequential w' rs) ≤ lossFn (asSequential w1 rs)) := by
  obtain ⟨rfl, w1, h1, h2⟩ := build_cases h hb
  obtain ⟨m1, m2, -⟩ := model_stack hls h
  have hmid : Mid w w1 ∧ (cfg.paramEqualizer = none → w1 = w) ∧
      lossFn (asSequential w1 rs') ≤ lossFn (asSequential w rs') := by
    cases hp : cfg.paramEqualizer with
    | none =>
      rw [hp] at h1
      simp only [Option.some.injEq] at h1
      subst h1
      exact ⟨mid_refl m1 m2, fun _ => rfl, le_rfl⟩
    | some p =>
      rw [hp] at h1
      obtain ⟨a, b⟩ := equalize_ok hls h h1
      exact ⟨b, by simp, a⟩
  obtain ⟨a1, a2, a3⟩ := hmid
  refine ⟨rfl, w1, a1, ?_⟩
  cases ha : cfg.adaRoundNet with
  | none =>
    rw [ha] at h2
    simp only [Option.some.injEq] at h2
    subst h2
    exact ⟨.refl _, a2, fun _ => rfl, a3, fun _ => le_rfl⟩
  | some a =>
    rw [ha] at h2
    obtain ⟨m, h2⟩ := adaroundNet_loop (fun e => hq (by rw [ha, e])) h2
    obtain ⟨b1, b2⟩ := adaroundLoop_ok rs' (targets_model hls hsh h a1.upd) h2
    exact ⟨b2, a2, by simp, a3, b1⟩

theorem stack_dense {W : World} {lo : ℕ} {ls : List KLayer} {rs : List QRes} (h : Stack W lo ls rs) :
    ∀ op ∈ networkOps rs, op.inputs.length = 3 → ∃ k l inp, op = fcAt k l inp ∧ k + 2 < W.next ∧ inp.id < W.next ∧
      inp.id ∉ W.biases ∧ Legal (W.nodes inp.id) ∧ (⟨k, inp.id, k + 1⟩ : Link) ∈ W.hooks k ∧ DenseOk W l k := by
  induction h with
  | nil => simp [networkOps]
  | skip _ _ ih => exact ih
  | @plain lo ls rs l r inp k hlo hk hin ho hd hs _ ih =>
    intro op hop h3
    simp only [networkOps, List.flatMap_cons, ho, List.cons_append, List.nil_append, List.mem_cons] at hop
    rcases hop with rfl | hop
    · exact ⟨k, l, inp, rfl, hk, by omega, hin.2.1, hin.2.2.1, hin.2.2.2, hd⟩
    · exact ih op hop h3
  | @act lo ls rs l r inp k hlo hk hin ho hd hs hal hab _ ih =>
    intro op hop h3
    simp only [networkOps, List.flatMap_cons, ho, List.cons_append, List.nil_append, List.mem_cons] at hop
    rcases hop with rfl | rfl | hop
    · exact ⟨k, l, inp, rfl, by omega, by omega, hin.2.1, hin.2.2.1, hin.2.2.2, hd⟩
    · simp [actAt] at h3
    · exact ih op hop h3

theorem model_dense {ext : Ext} {cfg : Cfg} {x : Arr ℚ} {ls : List KLayer} {w : World} {rs : List QRes}
    (hls : ∀ l, KLayer.lstm l ∉ ls) (h : quantizeModel ext cfg x ls = some (w, rs)) :
    ∀ op ∈ networkOps rs, op.inputs.length = 3 → ∃ k l inp, op = fcAt k l inp ∧ k + 2 < w.next ∧ inp.id < w.next ∧
      inp.id ∉ w.biases ∧ Legal (w.nodes inp.id) ∧ (⟨k, inp.id, k + 1⟩ : Link) ∈ w.hooks k ∧ DenseOk w l k := by
  obtain ⟨m1, m2, m3, i, rs', d, o, rfl, hi, hd, ho, hst⟩ := model_stack hls h
  intro op hop h3
  simp only [networkOps, List.flatMap_append, List.flatMap_cons, List.flatMap_nil, List.append_nil, hi, hd,
    List.mem_append, List.mem_singleton] at hop
  rcases hop with (rfl | hop) | rfl
  · simp at h3
  · exact stack_dense hst op hop h3
  · simp at h3

theorem nodeSkeleton_congr {n m : Node} (hf : n.tensor.map TensorPart.fp = m.tensor.map TensorPart.fp)
    (hq : n.quant = m.quant) (hl : n.lut.isSome = m.lut.isSome) (e : Bool) :
    nodeSkeleton (nodeJson n e) = nodeSkeleton (nodeJson m e) := by
  have key : ∀ n : Node, nodeSkeleton (nodeJson n e) = ⟨none, none,
      (n.tensor.map TensorPart.fp).map (fun a => ⟨none, if e then a.shape.drop 1 else a.shape, n.quant.repr⟩),
      if n.lut.isSome then some ⟨none, none, none⟩ else none⟩ := by
    intro n
    unfold nodeSkeleton nodeJson
    simp only [Option.map_map]
    cases n.lut <;> rfl
  rw [key n, key m, hf, hq, hl]

/-- A node at the end. -/
theorem node_end {w w1 w' : World} (hm : Mid w w1) (hr : Round w1 w') {i : ℕ} (hi : i < w.next) :
    (w'.nodes i).quant = (w.nodes i).quant ∧
      (w'.nodes i).tensor.map TensorPart.fp = (w.nodes i).tensor.map TensorPart.fp ∧
      (w'.nodes i).lut.isSome = (w.nodes i).lut.isSome := by
  obtain ⟨s, z, e⟩ := hm.upd i hi
  have hs := hr.still i
  refine ⟨by rw [hs.quant, e]; rfl, by rw [hs.fp, e, upd_fp], ?_⟩
  have h1 : (w'.nodes i).lut.isSome = (w1.nodes i).lut.isSome := by
    have := congrArg Option.isSome hs.policyLen
    simpa using this
  have h2 : (w1.nodes i).lut.isSome = (w.nodes i).lut.isSome := by
    have := congrArg Option.isSome (upd_lut (w.nodes i) s z)
    rw [e]
    simpa using this
  rw [h1, h2]

theorem good_end {w w1 w' : World} (hm : Mid w w1) (hr : Round w1 w') (hs : ∀ i < w.next, Sound (w.nodes i)) {i : ℕ}
    (hi : i < w.next) (hb : i ∉ w.biases) (hl : Legal (w.nodes i)) (e : Bool) :
    GoodParams (nodeJson (w'.nodes i) e) (w'.nodes i).scale := by
  obtain ⟨g1, g2, -, g4⟩ := hm.legal i hi hb hl
  have hst := hr.still i
  obtain ⟨n1, n2, -⟩ := node_end hm hr hi
  obtain ⟨-, s2, s3⟩ := hs i hi
  have ht : (w'.nodes i).tensor.isSome = true := by
    have := congrArg Option.isSome n2
    simp only [Option.isSome_map] at this
    rw [this, s3]
  obtain ⟨t, ht⟩ := Option.isSome_iff_exists.mp ht
  obtain ⟨-, -, u3, u4⟩ := hm.legal i hi hb hl
  have htj : (nodeJson (w'.nodes i) e).tensor = some
      ⟨if e then none else Arr.ofShape t.fp.shape t.quantized, if e then t.fp.shape.drop 1 else t.fp.shape,
        (w'.nodes i).quant.repr⟩ := by
    simp only [nodeJson, ht, Option.map_some]
  refine ⟨rfl, by rw [hst.scale]; exact g1, (w'.nodes i).zp, _, (w'.nodes i).quant, rfl, htj, ?_, ?_, ?_⟩
  · show (GDtype.ofString (w'.nodes i).quant.repr.toList).toOption = _
    rw [n1]; exact s2
  · rw [hst.zp, hst.quant]; exact u3
  · rw [hst.zp, hst.quant]; exact u4

theorem skeleton_end {w w1 w' : World} {rs : List QRes} (hm : Mid w w1) (hr : Round w1 w')
    (hrefs : ∀ op ∈ networkOps rs, (∀ r ∈ op.inputs, r.id < w.next) ∧ ∀ r ∈ op.outputs, r.id < w.next) :
    skeleton (networkJson w' rs) = skeleton (networkJson w rs) := by
  unfold skeleton networkJson
  simp only [NetJ.mk.injEq, List.map_map, true_and, and_true]
  refine List.map_congr_left (fun op hop => ?_)
  obtain ⟨h1, h2⟩ := hrefs op hop
  have key : ∀ r : Ref, r.id < w.next →
      nodeSkeleton (nodeJson (w'.nodes r.id) r.exclude) = nodeSkeleton (nodeJson (w.nodes r.id) r.exclude) := by
    intro r hr'
    obtain ⟨a, b, c⟩ := node_end hm hr hr'
    exact nodeSkeleton_congr b a c _
  simp only [Function.comp_apply, opJson, OpJ.mk.injEq, List.map_map, true_and, and_true]
  exact ⟨List.map_congr_left (fun r hr' => key r (h1 r hr')), List.map_congr_left (fun r hr' => key r (h2 r hr'))⟩

theorem dense_end {ext : Ext} {cfg : Cfg} {x : Arr ℚ} {ls : List KLayer} {w w1 w' : World} {rs : List QRes}
    (hls : ∀ l, KLayer.lstm l ∉ ls) (h : quantizeModel ext cfg x ls = some (w, rs)) (hm : Mid w w1) (hr : Round w1 w') :
    ∀ op ∈ (networkJson w' rs).graph, op.inputs.length = 3 → DenseOpOk op := by
  obtain ⟨-, m2, -⟩ := model_stack hls h
  intro op hop h3
  simp only [networkJson, List.mem_map] at hop
  obtain ⟨o, ho, rfl⟩ := hop
  obtain ⟨k, l, inp, rfl, k1, k2, k3, k4, k5, k6⟩ := model_dense hls h o ho (by simpa [opJson] using h3)
  obtain ⟨b1, b2⟩ := hm.link k (by omega) _ k5
  refine ⟨_, _, _, _, (w'.nodes inp.id).scale, (w'.nodes k).scale, (w'.nodes (k + 2)).scale, rfl, rfl,
    good_end hm hr m2 k2 k3 k4 _, good_end hm hr m2 (by omega) k6.kernelNotBias k6.kernelLegal _,
    good_end hm hr m2 (by omega) k6.outNotBias k6.outLegal _, ?_, ?_⟩
  · show some (w'.nodes (k + 1)).scale = _
    rw [(hr.still (k + 1)).scale, (hr.still k).scale, (hr.still inp.id).scale]
    rw [b1]
  · show some (w'.nodes (k + 1)).zp = _
    rw [(hr.still (k + 1)).zp, b2]

theorem fit_end {w w1 w' : World} (hm : Mid w w1) (hr : Round w1 w') {i : ℕ} (hi : i < w.next) (hf : Fit (w.nodes i)) :
    FitT (w'.nodes i) := by
  obtain ⟨s, z, e⟩ := hm.upd i hi
  exact (hr.fit i (by rw [e]; exact hf.update s z)).tensor

/-- The integers of a tensor that fits its policy. -/
theorem fitT_ints {n : Node} (h : FitT n) (hd : Fits32 n.quant.min n.quant.max) (hs : n.scale ≠ 0) {t : TensorPart}
    (ht : n.tensor = some t) : ∃ bits : List ℤ, bits.length = t.fp.data.length ∧ (∀ b ∈ bits, b = 0 ∨ b = 1) ∧
      t.quantized = List.zipWith (fun x b => clip n.quant.min n.quant.max (⌊x / n.scale + n.zp⌋ + b)) t.fp.data bits := by
  obtain ⟨h1, -, h3, h4⟩ := h t ht
  have e : t.policy.data = (t.policy.data.map Rat.num).map (fun (b : ℤ) => (b : ℚ)) := by
    rw [List.map_map]
    conv_lhs => rw [← List.map_id t.policy.data]
    refine List.map_congr_left (fun b hb => ?_)
    rcases h4 b hb with rfl | rfl <;> rfl
  refine ⟨t.policy.data.map Rat.num, by simp [h3], ?_, ?_⟩
  · intro b hb
    obtain ⟨c, hc, rfl⟩ := List.mem_map.mp hb
    rcases h4 c hc with rfl | rfl
    · left; rfl
    · right; rfl
  · rw [h1, e]
    rw [C06_policy_neighbours n.quant hd t.fp.data n.zp n.scale hs _ (by simp [h3])]
    rw [← e]

end Build

/-! ## Theorems -/

/-- C70.  `build` with a loss that is never exactly zero, or never positive, returns a network whose loss is at most that of the plainly
quantized network, whatever equalizers are configured (except the QUBO optimizer) and whatever the random numbers. -/
theorem C70_never_worse (ext : Ext) (lossFn : Option SeqNet → ℚ) (h0 : (∀ s, lossFn s ≠ 0) ∨ ∀ s, lossFn s ≤ 0)
    (qubo : World → List QRes → Option World) (draws : List (List ParamEq.Draw)) (cs : List Choices)
    (cfg : Config.QuantizerCfg) (hq : cfg.adaRoundNet ≠ some .qubo) (x : Arr ℚ) (ls : List KLayer)
    (hsh : ∀ l, KLayer.dense l ∈ ls → ∃ n, ShapeOk l n) (w w' : World) (rs rs' : List QRes)
    (h : quantizeModel ext cfg.forKeras x ls = some (w, rs))
    (hb : Build.build ext lossFn qubo draws cs cfg x ls = some (w', rs')) :
    lossFn (asSequential w' rs') ≤ lossFn (asSequential w rs) := by
  by_cases hls : ∀ l, KLayer.lstm l ∉ ls
  · obtain ⟨rfl, w1, -, -, -, -, a, b⟩ := build_ok hq hls hsh h hb
    exact (b h0).trans a
  · push Not at hls
    obtain ⟨l, hl⟩ := hls
    obtain ⟨rfl, w1, h1, h2⟩ := build_cases h hb
    obtain ⟨r, hr, op, ho, ht⟩ := model_lstm l hl h
    cases hp : cfg.paramEqualizer with
    | some p =>
      rw [hp] at h1
      simp only [equalizeNet, bundle_lstm rs' r hr op ho ht] at h1
      cases h1
    | none =>
      rw [hp] at h1
      simp only [Option.some.injEq] at h1
      subst h1
      cases ha : cfg.adaRoundNet with
      | none =>
        rw [ha] at h2
        simp only [Option.some.injEq] at h2
        subst h2
        exact le_rfl
      | some a =>
        rw [ha] at h2
        obtain ⟨m, h2⟩ := adaroundNet_loop (fun e => hq (by rw [ha, e])) h2
        rw [adaround_lstm rs' r hr op ho ht] at h2
        cases h2

/-- C70.  If the loss of a network that cannot be loaded is larger than that of the plainly quantized network, then the
network `build` returns can be loaded. -/
theorem C70_still_loads (ext : Ext) (lossFn : Option SeqNet → ℚ) (h0 : (∀ s, lossFn s ≠ 0) ∨ ∀ s, lossFn s ≤ 0)
    (qubo : World → List QRes → Option World) (draws : List (List ParamEq.Draw)) (cs : List Choices)
    (cfg : Config.QuantizerCfg) (hq : cfg.adaRoundNet ≠ some .qubo) (x : Arr ℚ) (ls : List KLayer)
    (hsh : ∀ l, KLayer.dense l ∈ ls → ∃ n, ShapeOk l n) (w w' : World) (rs rs' : List QRes)
    (h : quantizeModel ext cfg.forKeras x ls = some (w, rs))
    (hb : Build.build ext lossFn qubo draws cs cfg x ls = some (w', rs'))
    (hn : lossFn (asSequential w rs) < lossFn none) : (asSequential w' rs').isSome = true := by
  have := C70_never_worse ext lossFn h0 qubo draws cs cfg hq x ls hsh w w' rs rs' h hb
  cases ha : asSequential w' rs' with
  | some s => rfl
  | none => rw [ha] at this; exact absurd hn (not_lt.mpr this)

/-- C70, the two optimizers: `base` runs exactly like `annealer` without annealing steps and with the same retry limit,
whatever the temperatures. -/
theorem C70_base_is_stepless (ext : Ext) (lossFn : Option SeqNet → ℚ) (qubo : World → List QRes → Option World)
    (draws : List (List ParamEq.Draw)) (cs : List Choices) (cfg : Config.QuantizerCfg) (tMin tMax : ℚ)
    (updates maxRetries : ℤ) (x : Arr ℚ) (ls : List KLayer) :
    Build.build ext lossFn qubo draws cs { cfg with adaRoundNet := some (.base maxRetries) } x ls =
      Build.build ext lossFn qubo draws cs
        { cfg with adaRoundNet := some (.annealer tMin tMax updates 0 maxRetries) } x ls := by
  have e : ∀ w rs, adaroundNet lossFn qubo cs (.base maxRetries) w rs =
      adaroundNet lossFn qubo cs (.annealer tMin tMax updates 0 maxRetries) w rs := by
    intro w rs
    simp only [adaroundNet, Int.toNat_zero, List.length_eq_zero_iff]
  unfold Build.build Config.build
  simp only [e]
  rfl

/-- C70, the annealing steps: a finished build of a network in which some layer is rounded has decided on acceptance
exactly `steps` times per rounded layer. -/
theorem C70_steps (ext : Ext) (lossFn : Option SeqNet → ℚ) (qubo : World → List QRes → Option World)
    (draws : List (List ParamEq.Draw)) (cs : List Choices) (cfg : Config.QuantizerCfg) (tMin tMax : ℚ)
    (updates steps maxRetries : ℤ) (hc : cfg.adaRoundNet = some (.annealer tMin tMax updates steps maxRetries))
    (x : Arr ℚ) (ls : List KLayer) (r : World × List QRes)
    (hb : Build.build ext lossFn qubo draws cs cfg x ls = some r) : ∀ c ∈ cs, (c.accepts.length : ℤ) = max steps 0 := by
  unfold Build.build Config.build at hb
  cases h : quantizeModel ext cfg.forKeras x ls with
  | none => rw [h] at hb; cases hb
  | some p =>
    rw [h, hc] at hb
    obtain ⟨w, w', hw⟩ : ∃ w w', adaroundNet lossFn qubo cs (.annealer tMin tMax updates steps maxRetries) w p.2 =
        some w' := by
      simp only [Option.bind_eq_bind, Option.bind_some, if_true] at hb
      cases hp : cfg.paramEqualizer with
      | none =>
        rw [hp] at hb
        simp only [Option.bind_some, Option.bind_eq_some_iff] at hb
        obtain ⟨w', hw, _⟩ := hb
        exact ⟨_, w', hw⟩
      | some q =>
        rw [hp] at hb
        simp only [Option.bind_eq_some_iff] at hb
        obtain ⟨w, _, w', hw, _⟩ := hb
        exact ⟨w, w', hw⟩
    unfold adaroundNet at hw
    by_cases hall : ∀ c ∈ cs, c.accepts.length = steps.toNat
    · intro c hcs
      rw [hall c hcs]
      omega
    · simp only [if_neg hall] at hw
      cases hw

/-- C70.  A model with an LSTM layer cannot be built with any of the two equalizers: `build` raises. -/
theorem C70_lstm_raises (ext : Ext) (lossFn : Option SeqNet → ℚ) (qubo : World → List QRes → Option World)
    (draws : List (List ParamEq.Draw)) (cs : List Choices) (cfg : Config.QuantizerCfg)
    (hq : cfg.adaRoundNet ≠ some .qubo) (hc : cfg.paramEqualizer ≠ none ∨ cfg.adaRoundNet ≠ none) (x : Arr ℚ)
    (ls : List KLayer) (l : KLSTM) (hl : KLayer.lstm l ∈ ls) :
    Build.build ext lossFn qubo draws cs cfg x ls = none := by
  cases h : quantizeModel ext cfg.forKeras x ls with
  | none => unfold Build.build Config.build; rw [h]; rfl
  | some p =>
    obtain ⟨w, rs⟩ := p
    cases hb : Build.build ext lossFn qubo draws cs cfg x ls with
    | none => rfl
    | some q =>
      exfalso
      obtain ⟨w', rs'⟩ := q
      obtain ⟨rfl, w1, h1, h2⟩ := build_cases h hb
      obtain ⟨r, hr, op, ho, ht⟩ := model_lstm l hl h
      cases hp : cfg.paramEqualizer with
      | some p =>
        rw [hp] at h1
        simp only [equalizeNet, bundle_lstm rs' r hr op ho ht] at h1
        cases h1
      | none =>
        cases ha : cfg.adaRoundNet with
        | none => rcases hc with hc | hc
                  · exact hc hp
                  · exact hc ha
        | some a =>
          rw [ha] at h2
          obtain ⟨m, h2⟩ := adaroundNet_loop (fun e => hq (by rw [ha, e])) h2
          rw [adaround_lstm rs' r hr op ho ht] at h2
          cases h2

/-- C70.  The equalizers change numbers only: operators, their order and names, tensor shapes, dtypes and the presence
of tables are those of the plainly quantized network. -/
theorem C70_same_structure (ext : Ext) (lossFn : Option SeqNet → ℚ) (qubo : World → List QRes → Option World)
    (draws : List (List ParamEq.Draw)) (cs : List Choices) (cfg : Config.QuantizerCfg)
    (hq : cfg.adaRoundNet ≠ some .qubo) (x : Arr ℚ) (ls : List KLayer) (hls : ∀ l, KLayer.lstm l ∉ ls)
    (hsh : ∀ l, KLayer.dense l ∈ ls → ∃ n, ShapeOk l n) (w w' : World) (rs rs' : List QRes)
    (h : quantizeModel ext cfg.forKeras x ls = some (w, rs))
    (hb : Build.build ext lossFn qubo draws cs cfg x ls = some (w', rs')) :
    skeleton (networkJson w' rs') = skeleton (networkJson w rs) := by
  obtain ⟨rfl, w1, hm, hr, -⟩ := build_ok hq hls hsh h hb
  obtain ⟨-, -, -, hrefs⟩ := bundle_model hls h
  exact skeleton_end hm hr hrefs

/-- C70.  Every fully-connected operator of the returned network is fit for inference: positive scales, zero points in
the range of the exported dtypes, bias scale = kernel scale × input scale and bias zero point 0. -/
theorem C70_dense_operators (ext : Ext) (lossFn : Option SeqNet → ℚ) (qubo : World → List QRes → Option World)
    (draws : List (List ParamEq.Draw)) (cs : List Choices) (cfg : Config.QuantizerCfg)
    (hq : cfg.adaRoundNet ≠ some .qubo) (x : Arr ℚ) (ls : List KLayer) (hls : ∀ l, KLayer.lstm l ∉ ls)
    (hsh : ∀ l, KLayer.dense l ∈ ls → ∃ n, ShapeOk l n) (w' : World) (rs' : List QRes)
    (hb : Build.build ext lossFn qubo draws cs cfg x ls = some (w', rs')) :
    ∀ op ∈ (networkJson w' rs').graph, op.inputs.length = 3 → DenseOpOk op := by
  obtain ⟨w, rs, h⟩ : ∃ w rs, quantizeModel ext cfg.forKeras x ls = some (w, rs) := by
    cases h : quantizeModel ext cfg.forKeras x ls with
    | none => unfold Build.build Config.build at hb; rw [h] at hb; cases hb
    | some p => exact ⟨p.1, p.2, rfl⟩
  obtain ⟨rfl, w1, hm, hr, -⟩ := build_ok hq hls hsh h hb
  exact dense_end hls h hm hr

/-- C70.  The float weights are never changed, and the exported integers of every kernel and bias are, element by
element, one of the two integer neighbours of `weight / scale + zero point` for the *final* parameters, clipped to the
dtype. -/
theorem C70_integers (ext : Ext) (lossFn : Option SeqNet → ℚ) (qubo : World → List QRes → Option World)
    (draws : List (List ParamEq.Draw)) (cs : List Choices) (cfg : Config.QuantizerCfg)
    (hq : cfg.adaRoundNet ≠ some .qubo) (x : Arr ℚ) (ls : List KLayer) (hls : ∀ l, KLayer.lstm l ∉ ls)
    (hsh : ∀ l, KLayer.dense l ∈ ls → ∃ n, ShapeOk l n) (w w' : World) (rs rs' : List QRes)
    (h : quantizeModel ext cfg.forKeras x ls = some (w, rs))
    (hb : Build.build ext lossFn qubo draws cs cfg x ls = some (w', rs')) (op : Op) (hop : op ∈ networkOps rs')
    (h3 : op.inputs.length = 3) (r : Ref) (hr : r ∈ op.inputs.drop 1)
    (hd : Fits32 (w.nodes r.id).quant.min (w.nodes r.id).quant.max) :
    ∃ t0 t, (w.nodes r.id).tensor = some t0 ∧ (w'.nodes r.id).tensor = some t ∧ t.fp = t0.fp ∧
      ∃ bits : List ℤ, bits.length = t0.fp.data.length ∧ (∀ b ∈ bits, b = 0 ∨ b = 1) ∧
        t.quantized = List.zipWith (fun x b => clip (w.nodes r.id).quant.min (w.nodes r.id).quant.max
          (⌊x / (w'.nodes r.id).scale + (w'.nodes r.id).zp⌋ + b)) t0.fp.data bits := by
  have hdense := C70_dense_operators ext lossFn qubo draws cs cfg hq x ls hls hsh w' rs' hb
  obtain ⟨rfl, w1, hm, hro, -⟩ := build_ok hq hls hsh h hb
  obtain ⟨-, m2, -⟩ := model_stack hls h
  obtain ⟨k, l, inp, rfl, k1, k2, k3, k4, k5, k6⟩ := model_dense hls h op hop h3
  have hpos : ∀ i, (i = k ∨ i = k + 1) → i < w.next ∧ Fit (w.nodes i) ∧ (w'.nodes i).scale ≠ 0 := by
    obtain ⟨x, kk, b, o, sx, sk, so, e1, e2, g1, g2, g3, g4, g5⟩ := hdense (opJson w' (fcAt k l inp))
      (List.mem_map_of_mem hop) rfl
    simp only [opJson, fcAt, List.map_cons, List.map_nil, List.cons.injEq, and_true] at e1
    obtain ⟨rfl, rfl, rfl⟩ := e1
    rintro i (rfl | rfl)
    · refine ⟨by omega, k6.kernelFit, ?_⟩
      have := g2.1
      simp only [nodeJson, Option.some.injEq] at this
      rw [this]; exact ne_of_gt g2.2.1
    · refine ⟨by omega, k6.biasFit, ?_⟩
      simp only [nodeJson, Option.some.injEq] at g4
      rw [g4]; exact ne_of_gt (mul_pos g2.2.1 g1.2.1)
  have hid : r.id = k ∨ r.id = k + 1 := by
    simp only [fcAt, List.drop_succ_cons, List.drop_zero, List.mem_cons, List.not_mem_nil, or_false] at hr
    rcases hr with rfl | rfl
    · exact .inl rfl
    · exact .inr rfl
  obtain ⟨p1, p2, p3⟩ := hpos r.id hid
  obtain ⟨n1, n2, -⟩ := node_end hm hro p1
  obtain ⟨t0, ht0⟩ := Option.isSome_iff_exists.mp (m2 r.id p1).2.2
  rw [ht0] at n2
  simp only [Option.map_some, Option.map_eq_some_iff] at n2
  obtain ⟨t, ht, hfp⟩ := n2
  obtain ⟨bits, c1, c2, c3⟩ := fitT_ints (fit_end hm hro p1 p2) (by rw [n1]; exact hd) p3 ht
  rw [n1, hfp] at c3
  rw [hfp] at c1
  exact ⟨t0, t, ht0, ht, hfp, bits, c1, c2, c3⟩

namespace Build

/-- Rewriting policies changes only the integers of the export. -/
theorem export_round {w w' : World} (hr : Round w w') (rs' : List QRes) :
    withoutIntegers (networkJson w' rs') = withoutIntegers (networkJson w rs') := by
  have key : ∀ r : Ref, (fun n : NodeJ => ({ n with tensor := n.tensor.map (fun t => { t with data := none }) } : NodeJ))
      (nodeJson (w'.nodes r.id) r.exclude) =
      (fun n : NodeJ => ({ n with tensor := n.tensor.map (fun t => { t with data := none }) } : NodeJ))
      (nodeJson (w.nodes r.id) r.exclude) := by
    intro r
    have hs := hr.still r.id
    have e : ∀ n : Node, (fun n : NodeJ => ({ n with tensor := n.tensor.map (fun t => { t with data := none }) } : NodeJ))
        (nodeJson n r.exclude) = ⟨some n.scale, some n.zp, (n.tensor.map TensorPart.fp).map (fun a =>
          ⟨none, if r.exclude then a.shape.drop 1 else a.shape, n.quant.repr⟩),
          ((n.lut.map NodeLUT.lut).bind (fun l => (n.lut.map NodeLUT.offset).map (fun o => ⟨some l, some o, none⟩)))⟩ := by
      intro n
      simp only [nodeJson, Option.map_map]
      cases n.lut <;> rfl
    rw [e, e, hs.scale, hs.zp, hs.quant, hs.fp, hs.table, hs.offset]
  unfold withoutIntegers networkJson
  simp only [NetJ.mk.injEq, List.map_map, true_and, and_true]
  refine List.map_congr_left (fun op hop => ?_)
  simp only [Function.comp_apply, opJson, OpJ.mk.injEq, List.map_map, true_and, and_true]
  exact ⟨List.map_congr_left (fun r _ => key r), List.map_congr_left (fun r _ => key r)⟩

theorem step_round {w w' : World} (hr : Round w w') {i : ℕ} (hd : Fits32 (w.nodes i).quant.min (w.nodes i).quant.max)
    (hs : (w.nodes i).scale ≠ 0) {t t' : TensorPart} (ht : (w.nodes i).tensor = some t)
    (ht' : (w'.nodes i).tensor = some t') : List.Forall₂ (fun a b : ℤ => |a - b| ≤ 1) t'.quantized t.quantized := by
  rcases hr.part i with e | ⟨f1, f2⟩
  · rw [e, ht, Option.some.injEq] at ht'
    rw [ht']
    exact List.forall₂_same.mpr (fun a _ => by simp)
  · have hst := hr.still i
    obtain ⟨b, c1, c2, c3⟩ := fitT_ints f1 hd hs ht
    obtain ⟨b', d1, d2, d3⟩ := fitT_ints f2 (by rw [hst.quant]; exact hd) (by rw [hst.scale]; exact hs) ht'
    have hfp : t'.fp = t.fp := by
      have := hst.fp
      rw [ht, ht'] at this
      simpa using this
    rw [hst.scale, hst.zp, hst.quant, hfp] at d3
    rw [hfp] at d1
    rw [c3, d3]
    have key : ∀ (xs : List ℚ) (b b' : List ℤ), b.length = xs.length → b'.length = xs.length →
        (∀ v ∈ b, v = 0 ∨ v = 1) → (∀ v ∈ b', v = 0 ∨ v = 1) → List.Forall₂ (fun a b : ℤ => |a - b| ≤ 1)
          (List.zipWith (fun x b => clip (w.nodes i).quant.min (w.nodes i).quant.max
            (⌊x / (w.nodes i).scale + (w.nodes i).zp⌋ + b)) xs b')
          (List.zipWith (fun x b => clip (w.nodes i).quant.min (w.nodes i).quant.max
            (⌊x / (w.nodes i).scale + (w.nodes i).zp⌋ + b)) xs b) := by
      intro xs
      induction xs with
      | nil => intro b b' _ _ _ _; simp
      | cons x xs ih =>
        intro b b' h1 h2 h3 h4
        cases b with
        | nil => simp at h1
        | cons v b =>
          cases b' with
          | nil => simp at h2
          | cons v' b' =>
            simp only [List.zipWith_cons_cons]
            refine .cons ?_ (ih b b' (by simpa using h1) (by simpa using h2) (fun v hv => h3 v (by simp [hv]))
              (fun v hv => h4 v (by simp [hv])))
            have a1 := h3 v (by simp)
            have a2 := h4 v' (by simp)
            have hle := hd.2.1
            obtain ⟨f, hf⟩ : ∃ f, f = ⌊x / (w.nodes i).scale + (w.nodes i).zp⌋ := ⟨_, rfl⟩
            rw [← hf]
            unfold clip
            rw [abs_le]
            omega
    exact key _ _ _ c1 d1 c2 d2

end Build

/-- C70.  AdaRound alone changes nothing in the export but the integers of tensors: scales, zero points, tables,
shapes and dtypes are those of the plainly quantized network. -/
theorem C70_adaround_export (ext : Ext) (lossFn : Option SeqNet → ℚ) (qubo : World → List QRes → Option World)
    (draws : List (List ParamEq.Draw)) (cs : List Choices) (cfg : Config.QuantizerCfg)
    (hq : cfg.adaRoundNet ≠ some .qubo) (hp : cfg.paramEqualizer = none) (x : Arr ℚ) (ls : List KLayer)
    (hls : ∀ l, KLayer.lstm l ∉ ls)
    (hsh : ∀ l, KLayer.dense l ∈ ls → ∃ n, ShapeOk l n) (w w' : World) (rs rs' : List QRes)
    (h : quantizeModel ext cfg.forKeras x ls = some (w, rs))
    (hb : Build.build ext lossFn qubo draws cs cfg x ls = some (w', rs')) :
    withoutIntegers (networkJson w' rs') = withoutIntegers (networkJson w rs) := by
  obtain ⟨rfl, w1, hm, hr, he, -⟩ := build_ok hq hls hsh h hb
  rw [he hp] at hr
  exact Build.export_round hr rs'

/-- C70.  AdaRound alone moves every stored integer by at most one. -/
theorem C70_adaround_step (ext : Ext) (lossFn : Option SeqNet → ℚ) (qubo : World → List QRes → Option World)
    (draws : List (List ParamEq.Draw)) (cs : List Choices) (cfg : Config.QuantizerCfg)
    (hq : cfg.adaRoundNet ≠ some .qubo) (hp : cfg.paramEqualizer = none) (x : Arr ℚ) (ls : List KLayer)
    (hls : ∀ l, KLayer.lstm l ∉ ls)
    (hsh : ∀ l, KLayer.dense l ∈ ls → ∃ n, ShapeOk l n) (w w' : World) (rs rs' : List QRes)
    (h : quantizeModel ext cfg.forKeras x ls = some (w, rs))
    (hb : Build.build ext lossFn qubo draws cs cfg x ls = some (w', rs')) (i : ℕ)
    (hd : Fits32 (w.nodes i).quant.min (w.nodes i).quant.max) (hs : (w.nodes i).scale ≠ 0) (t t' : TensorPart)
    (ht : (w.nodes i).tensor = some t) (ht' : (w'.nodes i).tensor = some t') :
    List.Forall₂ (fun a b : ℤ => |a - b| ≤ 1) t'.quantized t.quantized := by
  obtain ⟨rfl, w1, hm, hr, he, -⟩ := build_ok hq hls hsh h hb
  rw [he hp] at hr
  exact Build.step_round hr hd hs ht ht'

/-! ## A concrete run -/

namespace C70Case

/-- Both equalizers configured. -/
def cfg : Config.QuantizerCfg := { adaRoundNet := some (.base 0), paramEqualizer := some ⟨0⟩ }

def layers : List KLayer :=
  [.dense { name := "a", units := 1, kernel := [[1], [-2]], bias := some [1 / 4], actName := "linear", act := id }]

def X : Arr ℚ := .mat [[1, 2], [-1, 3]]

/-- One plus the distance of the sum of all stored weights from 100. -/
def loss (s : Option SeqNet) : ℚ :=
  match s with
  | some n => 1 + |((n.layers.map (fun l => match l with
      | .fc f => f.weights.flatten.sum
      | _ => 0)).sum : ℤ) - 100|
  | none => 1000

theorem loss_ne (s : Option SeqNet) : loss s ≠ 0 := by
  unfold loss
  cases s with
  | none => norm_num
  | some n =>
    simp only
    positivity

def draws : List (List ParamEq.Draw) := [[⟨0, 1 / 2, 9 / 10⟩, ⟨0, 1 / 2, 0⟩], [⟨0, 1 / 2, 0⟩, ⟨0, 1 / 2, 0⟩]]

def choices : List Choices := [⟨5, [], [[0, 0], [0, 0], [0, 0]]⟩]

theorem shapes : ∀ l, KLayer.dense l ∈ layers → ∃ n, ShapeOk l n := by
  intro l hl
  simp only [layers, List.mem_singleton, KLayer.dense.injEq] at hl
  subst hl
  exact ⟨2, rfl, by norm_num, by norm_num, by simp⟩

theorem no_lstm : ∀ l, KLayer.lstm l ∉ layers := by simp [layers]

/-- The plainly quantized network has loss 165, the built one 161: the parameter search changed the kernel's scale
and zero point, AdaRound flipped a weight. -/
example : (quantizeModel ⟨id, id, id⟩ cfg.forKeras X layers).map (fun p => loss (asSequential p.1 p.2)) = some 165 ∧
    (build ⟨id, id, id⟩ loss (fun w _ => some w) draws choices cfg X layers).map (fun p =>
      (loss (asSequential p.1 p.2), (p.1.nodes 1).scale, (p.1.nodes 1).zp,
        (p.1.nodes 1).tensor.map (fun t => t.quantized))) = some (161, 121 / 8000, -1, some [66, -128]) := by
  constructor <;> decide +kernel

/-- AdaRound alone flips the same bit. -/
example : (build ⟨id, id, id⟩ loss (fun w _ => some w) draws choices { adaRoundNet := some (.base 0) } X layers).map
    (fun p => (loss (asSequential p.1 p.2), (p.1.nodes 1).scale, (p.1.nodes 1).tensor.map (fun t => t.quantized))) =
      some (164, 1 / 64, some [65, -128]) := by
  decide +kernel

end C70Case
end Verif
