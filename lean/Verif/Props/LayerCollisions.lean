import Verif.Model.LayerCollisions
import Verif.Lemmas.KernelExport
import Verif.Lemmas.Float
import Verif.Props.Collisions
import Verif.Props.Qubo

/-! # C78: the per-layer collision report -/

namespace Verif
open Keras LayerCollisions

namespace LayerCollisions

theorem suffix_ne {a b : String} {s t : List Char} (ha : s <:+ a.toList) (hb : t <:+ b.toList)
    (hst : s.getLast? ≠ t.getLast?) (hs : s ≠ []) (ht : t ≠ []) : a ≠ b := by
  rintro rfl
  obtain ⟨u, hu⟩ := ha
  obtain ⟨v, hv⟩ := hb
  have h1 := congrArg List.getLast? hu
  have h2 := congrArg List.getLast? hv
  rw [List.getLast?_append_of_ne_nil _ hs] at h1
  rw [List.getLast?_append_of_ne_nil _ ht] at h2
  exact hst (h1.trans h2.symm)

theorem kernel_ne_biasAdd (l : KDense) (sym : Bool) : kernelName l sym ≠ biasAddName l := by
  unfold kernelName biasAddName
  cases sym
  · exact suffix_ne (s := ['l']) (t := ['d']) ⟨(l.name ++ "/Kerne").toList, by simp⟩ ⟨(l.name ++ "/BiasAd").toList, by simp⟩
      (by decide) (by simp) (by simp)
  · exact suffix_ne (s := ['m']) (t := ['d']) ⟨(l.name ++ "/KernelSy").toList, by simp⟩
      ⟨(l.name ++ "/BiasAd").toList, by simp⟩ (by decide) (by simp) (by simp)

theorem kernel_ne_out (l : KDense) (sym : Bool) (a : Op) : kernelName l sym ≠ outName a := by
  unfold kernelName outName
  cases sym
  · exact suffix_ne (s := ['l']) (t := ['T']) ⟨(l.name ++ "/Kerne").toList, by simp⟩ ⟨(a.name ++ "/OU").toList, by simp⟩
      (by decide) (by simp) (by simp)
  · exact suffix_ne (s := ['m']) (t := ['T']) ⟨(l.name ++ "/KernelSy").toList, by simp⟩
      ⟨(a.name ++ "/OU").toList, by simp⟩ (by decide) (by simp) (by simp)

theorem biasAdd_ne_out (l : KDense) (a : Op) : biasAddName l ≠ outName a := by
  unfold biasAddName outName
  exact suffix_ne (s := ['d']) (t := ['T']) ⟨(l.name ++ "/BiasAd").toList, by simp⟩ ⟨(a.name ++ "/OU").toList, by simp⟩
    (by decide) (by simp) (by simp)

end LayerCollisions

/-- C78, averaging: for counts up to `2^52` and batches up to `2^53` samples, the rounded-up binary64 quotient is the
exact rounded-up quotient: the least integer `v` with `count ≤ v * batch`. -/
theorem C78_mean_exact (count : ℤ) (b : ℕ) (shape : List ℕ) (hc : |count| ≤ 2 ^ 52) (hb : 0 < b) (hb' : b ≤ 2 ^ 53) :
    ∃ v : ℤ, meanUp count (b :: shape) = some v ∧ count ≤ v * b ∧ (v - 1) * b < count := by
  have hbq : (0 : ℚ) < b := by exact_mod_cast hb
  have hm : meanUp count (b :: shape) = some ⌈Fmt.f64.fl ((count : ℚ) / b)⌉ := by
    cases b with
    | zero => omega
    | succ b => rfl
  refine ⟨_, hm, ?_⟩
  obtain ⟨x, hx⟩ : ∃ x : ℚ, x = (count : ℚ) / b := ⟨_, rfl⟩
  rw [← hx]
  have hxb : x * b = count := by rw [hx]; field_simp
  have hp : 1 ≤ Fmt.f64.p := by decide
  -- the rounded-up exact quotient
  have hcabs : |(count : ℚ)| ≤ 2 ^ 52 := by exact_mod_cast hc
  have hxabs : |x| ≤ 2 ^ 52 := by
    rw [hx, abs_div, abs_of_pos hbq, div_le_iff₀ hbq]
    have : (1 : ℚ) ≤ b := by exact_mod_cast hb
    nlinarith
  have h1 := Int.le_ceil x
  have h2 := Int.ceil_lt_add_one x
  have hcl : |⌈x⌉| ≤ 2 ^ 52 := by
    rw [abs_le] at hxabs ⊢
    constructor
    · have : (-(2 ^ 52 : ℤ) : ℚ) ≤ ⌈x⌉ := by push_cast; linarith [hxabs.1]
      exact_mod_cast this
    · exact Int.ceil_le.mpr (by push_cast; exact hxabs.2)
  have hrep : Fmt.f64.Rep (⌈x⌉ : ℚ) :=
    Fmt.rep_int _ (hcl.trans (by norm_num [Fmt.f64])) (by norm_num [Fmt.f64])
  have hle : Fmt.f64.fl x ≤ ⌈x⌉ := Fmt.fl_le hp hrep h1
  have hgt : ((⌈x⌉ : ℚ) - 1) < Fmt.f64.fl x := by
    have herr := Fmt.fl_err Fmt.f64 x
    -- `x` is at least `1 / b` above `⌈x⌉ - 1`
    have hgap : 1 / (b : ℚ) ≤ x - (⌈x⌉ - 1) := by
      rw [div_le_iff₀ hbq]
      have : (0 : ℚ) < (x - (⌈x⌉ - 1)) * b := mul_pos (by linarith) hbq
      have e : (x - (⌈x⌉ - 1)) * b = ((count - (⌈x⌉ - 1) * b : ℤ) : ℚ) := by push_cast; rw [← hxb]; ring
      rw [e] at this ⊢
      have : (0 : ℤ) < count - (⌈x⌉ - 1) * b := by exact_mod_cast this
      exact_mod_cast this
    have hsmall : max (|x| / 2 ^ Fmt.f64.p) ((2 : ℚ) ^ Fmt.f64.emin / 2) < 1 / b := by
      refine max_lt ?_ ?_
      · have : |x| = |(count : ℚ)| / b := by rw [hx, abs_div, abs_of_pos hbq]
        rw [this, div_div, div_lt_div_iff₀ (by positivity) hbq]
        have : |(count : ℚ)| < 2 ^ Fmt.f64.p := lt_of_le_of_lt hcabs (by norm_num [Fmt.f64])
        nlinarith
      · rw [lt_div_iff₀ hbq]
        have hb2 : (b : ℚ) ≤ 2 ^ 53 := by exact_mod_cast hb'
        have h3 : (2 : ℚ) ^ Fmt.f64.emin * 2 ^ 53 < 1 := by
          show (2 : ℚ) ^ (-1074 : ℤ) * 2 ^ 53 < 1
          have e : (2 : ℚ) ^ (1074 : ℤ) = 2 ^ (1074 : ℕ) := zpow_natCast 2 1074
          rw [zpow_neg, inv_mul_lt_iff₀ (by positivity), mul_one, e]
          exact pow_lt_pow_right₀ one_lt_two (by norm_num)
        have h4 : (0 : ℚ) < (2 : ℚ) ^ Fmt.f64.emin := by positivity
        nlinarith
    have := (abs_le.mp herr).1
    linarith
  have hceil : ⌈Fmt.f64.fl x⌉ = ⌈x⌉ := Int.ceil_eq_iff.mpr ⟨hgt, hle⟩
  rw [hceil]
  constructor
  · have : ((count : ℤ) : ℚ) ≤ ((⌈x⌉ * b : ℤ) : ℚ) := by
      push_cast; rw [← hxb]; exact mul_le_mul_of_nonneg_right h1 hbq.le
    exact_mod_cast this
  · have : (((⌈x⌉ - 1) * b : ℤ) : ℚ) < ((count : ℤ) : ℚ) := by
      push_cast; rw [← hxb]; exact mul_lt_mul_of_pos_right (by linarith) hbq
    exact_mod_cast this

example : meanUp 7 [2, 3] = some 4 ∧ meanUp (-7) [2, 3] = some (-3) ∧ meanUp 5 [0, 3] = none := by decide +kernel

namespace LayerCollisions

theorem set_new {d : Dict String ℤ} {k : String} {v : ℤ} (h : ∀ e ∈ d, e.1 ≠ k) : Dict.set d k v = d ++ [(k, v)] := by
  induction d with
  | nil => rfl
  | cons e d ih =>
    obtain ⟨k', v'⟩ := e
    have h1 : k' ≠ k := h (k', v') List.mem_cons_self
    show (if k' = k then _ else _) = _
    rw [if_neg h1, ih (fun e he => h e (List.mem_cons_of_mem _ he))]
    rfl

/-- The report on the tensors of two nodes. -/
theorem report_two (policy : Policy) (W : World) (l : KDense) (sym : Bool) (r : QRes) (fc : Op) (kernel out : Ref)
    (hops : r.ops = [fc]) (hk : fc.inputs[1]? = some kernel) (ho : fc.outputs[0]? = some out) (tk tb : TensorPart)
    (htk : (W.nodes kernel.id).tensor = some tk) (htb : (W.nodes out.id).tensor = some tb) :
    report policy W l sym r = (meanUp (policy tb.fp tb.quantized) tb.fp.shape).map (fun c =>
      [(kernelName l sym, policy tk.fp tk.quantized), (biasAddName l, c)]) := by
  have hn : nodesEq l sym r = some [(kernelName l sym, kernel.id), (biasAddName l, out.id)] := by
    unfold nodesEq; rw [hops]; simp [hk, ho]
  unfold report
  rw [hn]
  simp only [Option.bind_eq_bind, Option.bind_some, List.all_cons, htk, htb, Option.isSome_some, List.all_nil, Bool.and_self,
    if_true, List.getElem?_cons_zero, List.getElem?_cons_succ, List.length_cons, List.length_nil]
  cases meanUp (policy tb.fp tb.quantized) tb.fp.shape with
  | none => rfl
  | some c =>
    simp only [Option.bind_some, Option.map_some]
    rw [if_neg (by decide), set_new (d := Dict.set [] _ _) (by
      intro e he
      simp only [Dict.set, List.mem_singleton] at he
      subst he
      exact kernel_ne_biasAdd l sym)]
    rfl

/-- The report on the tensors of three nodes. -/
theorem report_three (policy : Policy) (W : World) (l : KDense) (sym : Bool) (r : QRes) (fc act : Op)
    (kernel out a : Ref) (hops : r.ops = [fc, act]) (hk : fc.inputs[1]? = some kernel) (ho : fc.outputs[0]? = some out)
    (ha : act.outputs[0]? = some a) (tk tb ta : TensorPart)
    (htk : (W.nodes kernel.id).tensor = some tk) (htb : (W.nodes out.id).tensor = some tb)
    (hta : (W.nodes a.id).tensor = some ta) :
    report policy W l sym r = (meanUp (policy tb.fp tb.quantized) tb.fp.shape).bind (fun c =>
      (meanUp (policy ta.fp ta.quantized) ta.fp.shape).map (fun c' =>
      [(kernelName l sym, policy tk.fp tk.quantized), (biasAddName l, c), (outName act, c')])) := by
  have hn : nodesEq l sym r = some [(kernelName l sym, kernel.id), (biasAddName l, out.id), (outName act, a.id)] := by
    unfold nodesEq; rw [hops]; simp [hk, ho, ha]
  unfold report
  rw [hn]
  simp only [Option.bind_eq_bind, Option.bind_some, List.all_cons, htk, htb, hta, Option.isSome_some, List.all_nil,
    Bool.and_self, if_true, List.getElem?_cons_zero, List.getElem?_cons_succ, List.length_cons, List.length_nil]
  cases meanUp (policy tb.fp tb.quantized) tb.fp.shape with
  | none => rfl
  | some c =>
    simp only [Option.bind_some]
    cases meanUp (policy ta.fp ta.quantized) ta.fp.shape with
    | none => rfl
    | some c' =>
      simp only [Option.bind_some, Option.map_some]
      rw [set_new (d := Dict.set [] _ _) (by
        intro e he
        simp only [Dict.set, List.mem_singleton] at he
        subst he
        exact kernel_ne_biasAdd l sym), set_new (by
        intro e he
        simp only [Dict.set, List.mem_append, List.mem_singleton] at he
        rcases he with rfl | rfl
        · exact kernel_ne_out l sym act
        · exact biasAdd_ne_out l act)]
      rfl

/-- An array with at least one sample. -/
theorem meanUp_some {shape : List ℕ} {b : ℕ} (hb : shape.head? = some b) (h0 : 0 < b) (c : ℤ) :
    ∃ v, meanUp c shape = some v := by
  cases shape with
  | nil => simp at hb
  | cons n s =>
    simp only [List.head?_cons, Option.some.injEq] at hb
    subst hb
    cases n with
    | zero => omega
    | succ n => exact ⟨_, rfl⟩

/-- The layer keeps the batch size. -/
theorem pre_batch {l : KDense} {X pre : Arr ℚ} (h : l.pre X = some pre) : pre.shape.head? = X.shape.head? := by
  cases X with
  | vec x => simp [KDense.pre] at h
  | mat X =>
    simp only [KDense.pre] at h
    split_ifs at h
    simp only [Option.some.injEq] at h
    subst h
    simp [Arr.shape]
  | cube X =>
    simp only [KDense.pre] at h
    split_ifs at h
    simp only [Option.some.injEq] at h
    subst h
    simp [Arr.shape]

theorem map_batch (X : Arr ℚ) (f : ℚ → ℚ) : (X.map f).shape.head? = X.shape.head? := by
  cases X <;> simp [Arr.shape, Arr.map]

end LayerCollisions

/-- The codes of data calibrated on itself or elsewhere: every entry quantized with scale and zero point `p`. -/
def Spec.codesOf (q : GDtype) (p : ℚ × ℤ) (data : List ℚ) : List ℤ :=
  data.map (fun x => Quantization.quantize q x p.2 p.1)

/-- C78, the report of a dense layer of a quantized network whose tensors are as quantization left them.  The kernel
entry counts the transposed kernel against its codes; the bias-add entry counts the layer's *input* against the input
quantized with the parameters calibrated on the layer's output, per sample and rounded up; only layers whose activation
is an operator of its own have a third entry, counting the activated data, per sample and rounded up. -/
theorem C78_report (policy : Policy) {w w' : World} {c : DenseCfg} {l : KDense} {prev r : QRes}
    (h : l.quantize w c prev = some (w', r)) (hid : ∀ i, prev.out = some i → i.id < w.next)
    (hu : 0 < l.units) (hk : 0 < l.kernel.length) (b : ℕ) (hb : prev.data.shape.head? = some b) (hb0 : 0 < b)
    (W : World) (hW : ∀ i < w'.next, (W.nodes i).tensor = (w'.nodes i).tensor) :
    ∃ qk qa qba pk pre d pb cb,
      quantization c.kernelDtype = some qk ∧ quantization c.activationDtype = some qa ∧
      quantization c.biasAddDtype = some qba ∧
      (Dist.build l.kernelT.flatten).quantize qk (some 0) none c.kernelSymmetric = some pk ∧
      l.pre prev.data = some pre ∧ l.trim (Dist.build pre.flat) = some d ∧ d.quantize qba = some pb ∧
      meanUp (policy prev.data.toFArr (Spec.codesOf qba pb prev.data.flat)) prev.data.shape = some cb ∧
      (upper l.actName ∈ skipFunctions → report policy W l c.kernelSymmetric r = some
        [(l.name ++ "/Kernel" ++ (if c.kernelSymmetric then "Sym" else ""),
            policy ⟨[l.units, l.kernel.length], l.kernelT.flatten⟩ (Spec.codesOf qk pk l.kernelT.flatten)),
          (l.name ++ "/BiasAdd", cb)]) ∧
      (upper l.actName ∉ skipFunctions → ∃ pa ca, (Dist.build (pre.map l.act).flat).quantize qa = some pa ∧
        meanUp (policy (pre.map l.act).toFArr (Spec.codesOf qa pa (pre.map l.act).flat)) (pre.map l.act).shape =
          some ca ∧
        report policy W l c.kernelSymmetric r = some
        [(l.name ++ "/Kernel" ++ (if c.kernelSymmetric then "Sym" else ""),
            policy ⟨[l.units, l.kernel.length], l.kernelT.flatten⟩ (Spec.codesOf qk pk l.kernelT.flatten)),
          (l.name ++ "/BiasAdd", cb),
          (String.ofList (upper l.actName ++ (if upper l.actName ∈ lutFunctions then "LUT".toList else [])) ++ "/OUT",
            ca)]) := by
  obtain ⟨qk, qa, qba, qb, input, kn, pre, d, pb, hqk, hqa, hqba, hqb, hin, hkn, hpre, hd, hpb, -, hcase⟩ :=
    l.quantize_spec h
  obtain ⟨sk, zk, hpk, rfl⟩ := kernelNode_eq hkn hu hk
  have hi := hid input hin
  obtain ⟨cb, hcb⟩ := meanUp_some hb hb0
    (policy prev.data.toFArr (Spec.codesOf qba pb prev.data.flat))
  have hfc := fcWorld_nodes w l input
    ((Node.base sk zk qk).withTensor ⟨[l.units, l.kernel.length], l.kernelT.flatten⟩) qb qba pb prev.data hi
  have hfn := fcWorld_next w l input
    ((Node.base sk zk qk).withTensor ⟨[l.units, l.kernel.length], l.kernelT.flatten⟩) qb qba pb prev.data
  obtain ⟨V, hV⟩ : ∃ V, V = fcWorld w l input
    ((Node.base sk zk qk).withTensor ⟨[l.units, l.kernel.length], l.kernelT.flatten⟩) qb qba pb prev.data := ⟨_, rfl⟩
  rw [← hV] at hfc hfn hcase
  have hVk : V.nodes w.next = (Node.base sk zk qk).withTensor ⟨[l.units, l.kernel.length], l.kernelT.flatten⟩ := by
    rw [hfc, if_neg (by omega), if_neg (by omega), if_pos rfl]
  have hVb : V.nodes (w.next + 2) = (Node.base pb.1 pb.2 qba).withTensor prev.data.toFArr := by rw [hfc, if_pos rfl]
  have hqz : ∀ (q : GDtype) (zp : ℤ) (s : ℚ) (xs : List ℚ), Quantization.quantizeArray q xs zp s =
      xs.map (fun x => Quantization.quantize q x zp s) := fun q zp s xs => quantizeArray_eq q xs zp s
  refine ⟨qk, qa, qba, (sk, zk), pre, d, pb, cb, hqk, hqa, hqba, hpk, hpre, hd, hpb, hcb, ?_, ?_⟩
  · intro hs
    rcases hcase with ⟨-, rfl, rfl⟩ | ⟨hns, -⟩
    · rw [report_two policy W l c.kernelSymmetric _ _ ⟨w.next, false⟩ ⟨w.next + 2, true⟩ rfl rfl rfl _ _
        ((hW w.next (by rw [hfn]; omega)).trans (by rw [hVk]; rfl))
        ((hW (w.next + 2) (by rw [hfn]; omega)).trans (by rw [hVb]; rfl))]
      simp only [hqz]
      have : meanUp (policy prev.data.toFArr (List.map (fun x => Quantization.quantize qba x pb.2 pb.1)
          prev.data.toFArr.data)) prev.data.toFArr.shape = some cb := hcb
      erw [this]
      rfl
    · exact absurd hs hns
  · intro hns
    rcases hcase with ⟨hs, -⟩ | ⟨-, pa, hpa, rfl, rfl⟩
    · exact absurd hs hns
    · obtain ⟨ca, hca⟩ := meanUp_some (shape := (pre.map l.act).shape) (b := b)
        (by rw [map_batch, pre_batch hpre, hb]) hb0
        (policy (pre.map l.act).toFArr (Spec.codesOf qa pa (pre.map l.act).flat))
      refine ⟨pa, ca, hpa, hca, ?_⟩
      have hnext : (if l.isLut then V.setNode (w.next + 2) ((V.nodes (w.next + 2)).withLut l.act pa.1 pa.2) else V).next =
          w.next + 3 := by
        cases l.isLut <;> exact hfn
      have hK : ∀ j, j ≠ w.next + 2 →
          (if l.isLut then V.setNode (w.next + 2) ((V.nodes (w.next + 2)).withLut l.act pa.1 pa.2) else V).nodes j =
          V.nodes j := by
        intro j hj
        cases l.isLut
        · rfl
        · show (V.setNode _ _).nodes j = _
          rw [World.setNode_nodes, if_neg hj]
      have hB : ((if l.isLut then V.setNode (w.next + 2) ((V.nodes (w.next + 2)).withLut l.act pa.1 pa.2) else V).nodes
          (w.next + 2)).tensor = (V.nodes (w.next + 2)).tensor := by
        cases l.isLut
        · rfl
        · show ((V.setNode _ _).nodes _).tensor = _
          rw [World.setNode_nodes, if_pos rfl]
          rfl
      rw [report_three policy W l c.kernelSymmetric _ _ _ ⟨w.next, false⟩ ⟨w.next + 2, true⟩ ⟨w.next + 3, true⟩
        rfl rfl rfl rfl _ _ _
        ((hW w.next (by rw [World.alloc_next, hnext]; omega)).trans
          (by rw [World.alloc_nodes, hnext, if_neg (by omega), hK _ (by omega), hVk]; rfl))
        ((hW (w.next + 2) (by rw [World.alloc_next, hnext]; omega)).trans
          (by rw [World.alloc_nodes, hnext, if_neg (by omega), hB, hVb]; rfl))
        ((hW (w.next + 3) (by rw [World.alloc_next, hnext]; omega)).trans
          (by rw [World.alloc_nodes, hnext, if_pos rfl]; rfl))]
      simp only [hqz]
      have e1 : meanUp (policy prev.data.toFArr (List.map (fun x => Quantization.quantize qba x pb.2 pb.1)
          prev.data.toFArr.data)) prev.data.toFArr.shape = some cb := hcb
      have e2 : meanUp (policy (pre.map l.act).toFArr (List.map (fun x => Quantization.quantize qa x pa.2 pa.1)
          (pre.map l.act).toFArr.data)) (pre.map l.act).toFArr.shape = some ca := hca
      erw [e1, Option.bind_some, e2]
      have hname : (actOp w l).name =
          String.ofList (upper l.actName ++ (if upper l.actName ∈ lutFunctions then "LUT".toList else [])) := by
        show String.ofList (if l.isLut then _ else _) = _
        unfold KDense.isLut
        by_cases hl : upper l.actName ∈ lutFunctions
        · simp only [hl, decide_true, if_true]
        · simp only [hl, decide_false, if_false, List.append_nil, Bool.false_eq_true]
      simp only [Option.map_some]
      unfold outName
      rw [hname]
      rfl

/-- C78, the total: `sum_collisions` is the sum of the entries of the report, and 0 for an empty one. -/
theorem C78_sum (k : String) (v : ℤ) (res : Dict String ℤ) :
    LayerCollisions.sum [] = 0 ∧ LayerCollisions.sum [(k, v)] = v ∧
      LayerCollisions.sum ((k, v) :: res) = v + LayerCollisions.sum res := by
  refine ⟨rfl, by simp [LayerCollisions.sum], ?_⟩
  cases res with
  | nil => simp [LayerCollisions.sum]
  | cons e res => simp [LayerCollisions.sum]

/-- C78: input and output layers report nothing, LSTM layers raise. -/
theorem C78_other_layers (policy : Policy) (W : World) (r : QRes) (op : Op) (hop : r.ops.head? = some op) :
    (op.opType ≠ "LSTM" → (layerReport policy W none r).map LayerCollisions.sum = some 0) ∧
      (op.opType = "LSTM" → layerReport policy W none r = none) := by
  constructor
  · intro h
    have : layerReport policy W none r = some [] := by
      show (if _ then _ else _) = _
      rw [hop]
      exact if_neg (fun hc => h (by simpa using hc))
    rw [this]
    rfl
  · intro h
    show (if _ then _ else _) = _
    rw [hop]
    exact if_pos (by simp [h])

/-- C78, keys: the entries of a report have pairwise different names, so none overwrites another and the total counts
every node exactly once. -/
theorem C78_names_distinct (policy : Policy) (W : World) (l : KDense) (sym : Bool) (r : QRes) (res : Dict String ℤ)
    (h : report policy W l sym r = some res) :
    (res.map (fun e => e.1)).Nodup ∧ (res.length = 2 ∨ res.length = 3) ∧ (res.length = 3 ↔ r.ops.length = 2) := by
  unfold report at h
  simp only [Option.bind_eq_bind, Option.bind_eq_some_iff] at h
  obtain ⟨nodes, hn, h⟩ := h
  have hall : nodes.all (fun n => (W.nodes n.2).tensor.isSome) = true := by
    by_contra hc
    rw [if_neg hc] at h
    cases h
  unfold nodesEq at hn
  match hops : r.ops, hn with
  | fc :: rest, hn =>
    simp only [Option.bind_eq_bind, Option.bind_eq_some_iff] at hn
    obtain ⟨kernel, hk, out, ho, hn⟩ := hn
    have two : ∀ (hr : rest.length ≠ 1) (hnodes : nodes = [(kernelName l sym, kernel.id), (biasAddName l, out.id)]),
        (res.map (fun e => e.1)).Nodup ∧ (res.length = 2 ∨ res.length = 3) ∧
          (res.length = 3 ↔ (fc :: rest).length = 2) := by
      intro hr hnodes
      subst hnodes
      rw [if_pos hall] at h
      simp only [List.getElem?_cons_zero, List.getElem?_cons_succ, Option.bind_some, Option.bind_eq_some_iff,
        List.length_cons, List.length_nil] at h
      obtain ⟨tk, -, tb, -, c, -, h⟩ := h
      rw [if_neg (by decide), set_new (d := Dict.set [] _ _) (by
        intro e he
        simp only [Dict.set, List.mem_singleton] at he
        subst he
        exact kernel_ne_biasAdd l sym), Option.some.injEq] at h
      subst h
      refine ⟨?_, .inl rfl, ?_⟩
      · simpa [Dict.set] using kernel_ne_biasAdd l sym
      · simp only [Dict.set, List.cons_append, List.nil_append, List.length_cons, List.length_nil]
        omega
    match rest, hn, two with
    | [], hn, two => exact two (by simp) (by simpa using hn.symm)
    | [act], hn, _ =>
      simp only [Option.bind_eq_bind, Option.bind_eq_some_iff, Option.some.injEq] at hn
      obtain ⟨a, ha, rfl⟩ := hn
      rw [if_pos hall] at h
      simp only [List.getElem?_cons_zero, List.getElem?_cons_succ, Option.bind_some, Option.bind_eq_some_iff,
        List.length_cons, List.length_nil] at h
      obtain ⟨tk, -, tb, -, c, -, h⟩ := h
      rw [if_pos (by decide)] at h
      simp only [Option.bind_eq_some_iff] at h
      obtain ⟨ta, -, c', -, h⟩ := h
      rw [set_new (d := Dict.set [] _ _) (by
        intro e he
        simp only [Dict.set, List.mem_singleton] at he
        subst he
        exact kernel_ne_biasAdd l sym), set_new (by
        intro e he
        simp only [Dict.set, List.mem_append, List.mem_singleton] at he
        rcases he with rfl | rfl
        · exact kernel_ne_out l sym act
        · exact biasAdd_ne_out l act), Option.some.injEq] at h
      subst h
      refine ⟨?_, .inr rfl, ?_⟩
      · simp [Dict.set, kernel_ne_biasAdd l sym, kernel_ne_out l sym act, biasAdd_ne_out l act]
      · simp [Dict.set]
    | _ :: _ :: _, hn, two => exact two (by simp) (by simpa using hn.symm)

/-- C78, what a zero means for the kernel: counted without tolerance, its entry is not negative, and 0 exactly when no
two weights have the same code. -/
theorem C78_kernel_zero (eps : ℤ) (he : eps ≤ 0) (q : GDtype) (p : ℚ × ℤ) (shape : List ℕ) (ws : List ℚ) :
    0 ≤ counting eps ⟨shape, ws⟩ (Spec.codesOf q p ws) ∧
      (counting eps ⟨shape, ws⟩ (Spec.codesOf q p ws) = 0 ↔ (Spec.codesOf q p ws).Nodup) :=
  C44_zero_iff ws _ eps he

namespace C78Case

/-- Two inputs, two units, and some function instead of tanh. -/
def layer : KDense :=
  { name := "d", units := 2, kernel := [[1000, 2000], [-500, 700]], bias := none, actName := "tanh", act := fun x => x / 2 }

/-- The samples; the layer's outputs are 0, 3400, 1000 and 8800. -/
def X : Arr ℚ := .mat [[1, 2], [3, 4]]

/-- The network quantized, then the report of its dense layer.  Neither the kernel nor the outputs have collisions, yet
the bias-add entry is 2: it counts the four *inputs*, which all get the same code with the output's scale. -/
example : (quantizeModel ⟨id, id, id⟩ {} X [.dense layer]).bind (fun p => (p.2[1]?).bind (fun r =>
    report (counting 0) p.1 layer false r)) =
      some [("d/Kernel", 0), ("d/BiasAdd", 2), ("TANHLUT/OUT", 0)] := by
  decide +kernel

end C78Case
end Verif
