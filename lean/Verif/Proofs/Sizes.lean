import Verif.Proofs.RoundTrip
import Verif.Spec.Image
/-!
# Widths and sizes of what `build` emits
-/

namespace Verif
open Spec SFrameBuilder

theorem values_eq (r : FrameRowBuilder) : values r = (rowValues r).map BitVec.toInt := by
  unfold values rowValues
  cases r.offsets with
  | none => rfl
  | some x => simp

theorem fitsIn_one (v : Int) : FitsIn 1 v ↔ -0x80 ≤ v ∧ v ≤ 0x7F := by
  unfold FitsIn; simp; omega

theorem fitsIn_two (v : Int) : FitsIn 2 v ↔ -0x8000 ≤ v ∧ v ≤ 0x7FFF := by
  unfold FitsIn; simp; omega

theorem fitsIn_four (v : Int) : FitsIn 4 v ↔ -0x80000000 ≤ v ∧ v ≤ 0x7FFFFFFF := by
  unfold FitsIn; simp; omega

/-- The step of `firstLargest`. -/
def larger (a v : Int) : Int := if a.natAbs < v.natAbs then v else a

theorem firstLargest_foldl (vs : List Int) : firstLargest vs = vs.foldl larger 0 := rfl

theorem larger_zero (c : Int) : larger 0 c = c := by
  unfold larger
  split <;> omega

theorem larger_toInt (a b : I32) : larger a.toInt b.toInt
      = (if FrameRowOffsets.unsignedAbs a < FrameRowOffsets.unsignedAbs b then b else a).toInt := by
  unfold larger FrameRowOffsets.unsignedAbs
  split <;> rfl

/-- The variable `max` of `offset_type`. -/
def maxOffset (f : FrameRowOffsets) : I32 :=
  let max := f.cfa
  let max := match f.ra with
    | some ra => if FrameRowOffsets.unsignedAbs max < FrameRowOffsets.unsignedAbs ra then ra else max
    | none => max
  match f.fp with
    | some fp => if FrameRowOffsets.unsignedAbs max < FrameRowOffsets.unsignedAbs fp then fp else max
    | none => max

theorem offsetType_eq (x : FrameRowOffsets) :
    x.offsetType = if -0x80 ≤ (maxOffset x).toInt ∧ (maxOffset x).toInt ≤ 0x7F then .u8
        else if -0x8000 ≤ (maxOffset x).toInt ∧ (maxOffset x).toInt ≤ 0x7FFF then .u16 else .u32 := by
  obtain ⟨c, ra, fp⟩ := x
  unfold FrameRowOffsets.offsetType maxOffset
  cases ra <;> cases fp <;> simp only

theorem firstLargest_eq (x : FrameRowOffsets) (st : U32) (m : Bool) (b : BaseReg) :
    firstLargest (values ⟨st, some x, m, b⟩) = (maxOffset x).toInt := by
  obtain ⟨c, ra, fp⟩ := x
  rw [firstLargest_foldl]
  cases ra with
  | none =>
    cases fp with
    | none => exact larger_zero _
    | some fp =>
      change larger (larger 0 c.toInt) fp.toInt = _
      rw [larger_zero, larger_toInt]
      rfl
  | some ra =>
    cases fp with
    | none =>
      change larger (larger 0 c.toInt) ra.toInt = _
      rw [larger_zero, larger_toInt]
      rfl
    | some fp =>
      change larger (larger (larger 0 c.toInt) ra.toInt) fp.toInt = _
      rw [larger_zero, larger_toInt, larger_toInt]
      rfl

theorem rowWidth_eq (r : FrameRowBuilder) : rowWidth r = (rowOffsetType r).bytes := by
  obtain ⟨st, off, m, b⟩ := r
  unfold rowWidth
  cases off with
  | none => rfl
  | some x =>
    rw [firstLargest_eq]
    simp only [rowOffsetType, offsetType_eq, fitsIn_one, fitsIn_two]
    split
    · rfl
    split <;> rfl

theorem foldl_max_last {f : FuncDescBuilder} (h : FdeInv f) :
    ((rows f).map fun r => r.startAddress.toNat).foldl max 0
      = match f.fres.last with | some (_, fre) => fre.startAddress.toNat | none => 0 := by
  rcases List.eq_nil_or_concat f.fres with hn | ⟨l, x, hx⟩
  · simp [rows, hn, BMap.last]
  · have hle : ∀ e ∈ l, e.2.startAddress.toNat ≤ x.2.startAddress.toNat := by
      intro e he
      have hs := h.sorted
      rw [hx] at hs
      simp only [BMap.Sorted, List.concat_eq_append, List.pairwise_append] at hs
      have := hs.2.2 e he x (by simp)
      have k1 := h.key e (by simp [hx, he])
      have k2 := h.key x (by simp [hx])
      simp only [ordU32, k1, k2] at this
      omega
    have hm : ∀ (l : List (U32 × FrameRowBuilder)) (acc n : Nat), acc ≤ n →
        (∀ e ∈ l, e.2.startAddress.toNat ≤ n) →
        (l.map fun e => e.2.startAddress.toNat).foldl max acc ≤ n := by
      intro l
      induction l with
      | nil => intro acc n h _; exact h
      | cons e l ih =>
        intro acc n h1 h2
        simp only [List.map_cons, List.foldl_cons]
        exact ih _ n (by have := h2 e (by simp); omega) fun e he => h2 e (List.mem_cons_of_mem _ he)
    have := hm l 0 _ (by omega) hle
    simp only [rows, hx, List.concat_eq_append, List.map_append, List.map_cons, List.map_nil,
      List.foldl_append, List.foldl_cons, List.foldl_nil, BMap.last, List.getLast?_append,
      List.getLast?_singleton, Option.some_or, List.map_map]
    have hc : ((fun r : FrameRowBuilder => r.startAddress.toNat) ∘ Prod.snd)
        = fun e : U32 × FrameRowBuilder => e.2.startAddress.toNat := rfl
    rw [hc]
    omega

theorem startWidth_eq {f : FuncDescBuilder} (h : FdeInv f) : startWidth f = (addrTy f).bytes := by
  unfold startWidth addrTy
  simp only
  rw [foldl_max_last h]
  cases f.fres.last <;> (simp only; repeat' split) <;> rfl

theorem encRow_length (o : Endian) (t : FreAddrSize) (r : FrameRowBuilder) :
    (encRow o t r).length = t.bytes + 1 + (rowOffsetType r).bytes * (rowValues r).length := by
  simp only [encRow, List.length_append, startBytes_length, List.length_singleton,
    flatMap_length_const _ _ _ (offsetBytes_length o (rowOffsetType r))]

theorem chunk_length (o : Endian) {f : FuncDescBuilder} (h : FdeInv f) :
    (chunk o f).length = fresSize f := by
  unfold chunk encRows fresSize
  rw [List.length_flatMap]
  congr 1
  apply List.map_congr_left
  intro r _
  rw [encRow_length, rowSize, startWidth_eq h, rowWidth_eq, values_eq, List.length_map]

theorem chunks_length (o : Endian) {fs : List FuncDescBuilder} (h : ∀ f ∈ fs, FdeInv f) :
    (chunks o fs).length = totalSize fs := by
  unfold chunks totalSize
  rw [List.length_flatMap]
  congr 1
  apply List.map_congr_left
  intro f hf
  exact chunk_length o (h f hf)

theorem rowCount_eq (fs : List FuncDescBuilder) : rowCount fs = totalRows fs := by
  simp [rowCount, totalRows, rows]

theorem BuilderInv.function {b : SFrameBuilder} (h : BuilderInv b) {f : FuncDescBuilder}
    (hf : f ∈ functions b) : FdeInv f ∧ f.options = b.options := by
  simp only [functions, List.mem_map] at hf
  obtain ⟨e, he, rfl⟩ := hf
  exact ⟨h.fde e he, h.options e he⟩

theorem values_functions (b : SFrameBuilder) : b.fdes.values = functions b := rfl

theorem functions_length (b : SFrameBuilder) : (functions b).length = b.fdes.length := by
  simp [functions]

theorem fits_iff (o : Endian) {b : SFrameBuilder} (h : BuilderInv b) :
    Fits o b ↔ Representable (functions b) := by
  unfold Fits Representable
  rw [values_functions, functions_length, rowCount_eq,
    chunks_length o fun f hf => (h.function hf).1]

end Verif
