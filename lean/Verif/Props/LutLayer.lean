import Verif.Model.LutLayer
import Verif.Lemmas.Quant
import Verif.Props.ReducedLUT

/-!
# Property C07: activation look-up tables
-/

namespace Verif
open Spec

/-! ## C07 -/

/-- C07 (size).  The table has one entry per code of the dtype. -/
theorem C07_one_entry_per_code (d : GDtype) (f : ℚ → ℚ) (is : ℚ) (izp : ℤ) (os : ℚ) (ozp : ℤ) :
    (Quantization.createLUT d f is izp os ozp).length = (d.max - d.min + 1).toNat := by
  unfold Quantization.createLUT Quantization.quantizeArray Quantization.floatActivation
    Quantization.dequantizeArray
  simp [codes_length]

/-- C07 (entries).  The entry for code `q` is the quantization of the activation of the real value of `q`. -/
theorem C07_entry (d : GDtype) (hd : Fits32 d.min d.max) (f : ℚ → ℚ) (is : ℚ) (izp : ℤ) (os : ℚ) (ozp : ℤ)
    (q : ℤ) (hq : Code d.min d.max q) (hz : IsInt32 (q - izp)) :
    (Quantization.createLUT d f is izp os ozp)[(q - d.min).toNat]? =
      some (Quantization.quantize d (f (real izp is q)) ozp os) := by
  have hq32 : IsInt32 q := ⟨by have := hd.1; have := hq.1; omega, by have := hd.2.2; have := hq.2; omega⟩
  unfold Quantization.createLUT Quantization.quantizeArray Quantization.floatActivation
    Quantization.dequantizeArray
  simp only [List.getElem?_map, codes_get hq, Option.map_some, dequantize_eq hq32 hz]
  rfl

/-- C07 (nearest).  … and therefore an output code nearest to the activation of the real input. -/
theorem C07_entry_nearest (d : GDtype) (hd : Fits32 d.min d.max) (f : ℚ → ℚ) (is : ℚ) (izp : ℤ) (os : ℚ)
    (hos : 0 < os) (ozp : ℤ) (q : ℤ) (hq : Code d.min d.max q) (hz : IsInt32 (q - izp)) :
    ∃ y, (Quantization.createLUT d f is izp os ozp)[(q - d.min).toNat]? = some y ∧
      Nearest d.min d.max ozp os (f (real izp is q)) y := by
  refine ⟨_, C07_entry d hd f is izp os ozp q hq hz, ?_⟩
  rw [quantize_eq hd]
  exact nearest_clip_round hd.2.1 ozp hos _ _ (abs_roundHalfUp_sub_le _)

/-- The JSON node carrying a table for dtype `d`: offset `-d.min`, optionally a reduced version of the table. -/
def lutNode (d : GDtype) (table : List ℤ) (reduced : Option (ℤ × ℤ)) : NodeJ :=
  { scale := none, zeroPoint := none, tensor := none,
    lut := some ⟨some table, some (-d.min), reduced.map (fun p => (ReducedLUT.mk' table p.1 p.2).serialize)⟩ }

/-- C07 (inference).  The engine's LUT layer loaded from such a node — with the plain list or with a reduced
table of any depth — returns for every code of the dtype exactly the quantized activation. -/
theorem C07_layer_reads_entry (d : GDtype) (hd : Fits32 d.min d.max) (f : ℚ → ℚ) (is : ℚ) (izp : ℤ) (os : ℚ)
    (ozp : ℤ) (q : ℤ) (hq : Code d.min d.max q) (hz : IsInt32 (q - izp)) (reduced : Option (ℤ × ℤ)) :
    ∃ l, LutLayer.ofNode (lutNode d (Quantization.createLUT d f is izp os ozp) reduced) = some l ∧
      l.look q = some (Quantization.quantize d (f (real izp is q)) ozp os) ∧
      l.infer (.vec [q]) = some (.vec [Quantization.quantize d (f (real izp is q)) ozp os]) := by
  have he := C07_entry d hd f is izp os ozp q hq hz
  have hlt : (q - d.min).toNat < (Quantization.createLUT d f is izp os ozp).length := by
    rw [C07_one_entry_per_code]; unfold Code at hq; omega
  have hidx : q + -d.min = ((q - d.min).toNat : ℤ) := by unfold Code at hq; omega
  have key : ∀ l, LutLayer.ofNode (lutNode d (Quantization.createLUT d f is izp os ozp) reduced) = some l →
      l.look q = some (Quantization.quantize d (f (real izp is q)) ozp os) := by
    intro l hl
    cases reduced with
    | none =>
      simp only [LutLayer.ofNode, lutNode, Option.map_none, Option.getD_some, Option.some.injEq] at hl
      subst hl
      simp only [LutLayer.look, LutTable.get, ReducedLUT.pyIndex, hidx]
      rw [if_pos (by omega), Int.toNat_natCast]
      exact he
    | some p =>
      simp only [LutLayer.ofNode, lutNode, Option.map_some, Option.getD_some, Option.some.injEq] at hl
      subst hl
      simp only [LutLayer.look, LutTable.get, hidx]
      rw [C12_deserialized_correct _ _ _ _ hlt, ← List.getElem?_eq_getElem hlt]
      exact he
  obtain ⟨l, hl⟩ : ∃ l, LutLayer.ofNode (lutNode d (Quantization.createLUT d f is izp os ozp) reduced) = some l :=
    ⟨_, rfl⟩
  refine ⟨l, hl, key l hl, ?_⟩
  unfold LutLayer.infer
  rw [if_neg (by simp [Arr.flat])]
  simp [Arr.mapM, key l hl]

/-- Concrete case: a 3-bit table of `x ↦ x²` with offset 4; plain and reduced reading agree. -/
example : Quantization.createLUT (intDtype 2) (fun x => x * x) (1/2) 0 (1/2) (-4) = [3, 1, -2, -3, -4, -3, -2, 1] ∧
    ((LutLayer.ofNode (lutNode (intDtype 2) [3, 1, -2, -3, -4, -3, -2, 1] (some (2, 0)))).bind
      (fun l => l.look (-3))) = some 1 ∧
    ((LutLayer.ofNode (lutNode (intDtype 2) [3, 1, -2, -3, -4, -3, -2, 1] none)).bind
      (fun l => l.look 3)) = some 1 := by
  decide +kernel

/-- C07 (loading).  A node without an offset is read like a node with offset 0, and a node without a table
cannot be loaded. -/
theorem C07_missing_fields (n : NodeJ) :
    (n.lut = none → LutLayer.ofNode n = none) ∧
    (∀ (table : Option (List ℤ)) (red : Option ReducedLUT.Json), n.lut = some ⟨table, none, red⟩ →
      LutLayer.ofNode n = LutLayer.ofNode { n with lut := some ⟨table, some 0, red⟩ }) := by
  constructor
  · intro h; simp only [LutLayer.ofNode, h]
  · intro table red h; simp only [LutLayer.ofNode, h, Option.getD_none, Option.getD_some]

/-- C07, outside the dtype: with a plain table a code just below the range silently reads from the end of the
table (Python's negative indexing), with a reduced table any code below the range reads the first entry; above
the range the plain table raises but the reduced one returns the last entry.  Reading the two forms of one
table therefore agrees only on the codes of the dtype. -/
theorem C07_out_of_range (table : List ℤ) (hne : table ≠ []) (depth minReduce off x : ℤ) :
    (x + off < 0 → -(table.length : ℤ) ≤ x + off →
      (LutLayer.mk (.plain table) off).look x = table[(x + off + table.length).toNat]?) ∧
    (x + off < -(table.length : ℤ) → (LutLayer.mk (.plain table) off).look x = none) ∧
    (x + off < 0 →
      (LutLayer.mk (.reduced (ReducedLUT.mk' table depth minReduce)) off).look x = some (table.head hne)) ∧
    ((table.length : ℤ) ≤ x + off →
      (LutLayer.mk (.plain table) off).look x = none ∧
      (LutLayer.mk (.reduced (ReducedLUT.mk' table depth minReduce)) off).look x =
        some (table.getLast hne)) := by
  simp only [LutLayer.look, LutTable.get, ReducedLUT.pyIndex]
  refine ⟨fun h1 h2 => ?_, fun h => ?_, fun h => ?_, fun h => ⟨?_, ?_⟩⟩
  · rw [if_neg (by omega), if_pos h2]
  · rw [if_neg (by omega), if_neg (by omega)]
  · exact C11_negative_index_returns_first table hne depth minReduce _ h
  · rw [if_pos (by omega), List.getElem?_eq_none (by omega)]
  · obtain ⟨i, hi⟩ : ∃ i : ℕ, x + off = i := ⟨(x + off).toNat, by omega⟩
    rw [hi]
    exact C11_index_past_end_returns_last table hne depth minReduce i (by omega)

/-- Concrete case: the two forms of one table disagree on the code below the range and on the code above it. -/
example : (LutLayer.mk (.plain [10, 11, 12, 13]) 2).look (-3) = some 13 ∧
    (LutLayer.mk (.reduced (ReducedLUT.mk' [10, 11, 12, 13] 1 0)) 2).look (-3) = some 10 ∧
    (LutLayer.mk (.plain [10, 11, 12, 13]) 2).look 2 = none ∧
    (LutLayer.mk (.reduced (ReducedLUT.mk' [10, 11, 12, 13] 1 0)) 2).look 2 = some 13 := by
  decide +kernel

end Verif
