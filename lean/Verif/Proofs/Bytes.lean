import Verif.Spec.Layout
/-!
# Reads and writes of integers in either byte order
-/

namespace Verif
open Spec

theorem natOf_cons1 (o : Endian) (a : U8) : natOf o [a] = a.toNat := by
  cases o <;> simp [natOf]

theorem take2_drop {s : List U8} {p : Nat} (h : p + 2 ≤ s.length) :
    (s.drop p).take 2 = [byteAt s p, byteAt s (p + 1)] := by
  apply List.ext_getElem
  · simp; omega
  · intro i h1 h2
    simp only [List.length_cons, List.length_nil] at h2
    have : i = 0 ∨ i = 1 := by omega
    rcases this with rfl | rfl <;> simp [byteAt, show p < s.length by omega,
      show p + 1 < s.length by omega]

theorem take4_drop {s : List U8} {p : Nat} (h : p + 4 ≤ s.length) :
    (s.drop p).take 4 = [byteAt s p, byteAt s (p + 1), byteAt s (p + 2), byteAt s (p + 3)] := by
  apply List.ext_getElem
  · simp; omega
  · intro i h1 h2
    simp only [List.length_cons, List.length_nil] at h2
    have : i = 0 ∨ i = 1 ∨ i = 2 ∨ i = 3 := by omega
    rcases this with rfl | rfl | rfl | rfl <;> simp [byteAt,
      show p < s.length by omega, show p + 1 < s.length by omega,
      show p + 2 < s.length by omega, show p + 3 < s.length by omega]

theorem take1_drop {s : List U8} {p : Nat} (h : p + 1 ≤ s.length) :
    (s.drop p).take 1 = [byteAt s p] := by
  apply List.ext_getElem
  · simp; omega
  · intro i h1 h2
    simp only [List.length_cons, List.length_nil] at h2
    have : i = 0 := by omega
    subst this; simp [byteAt, show p < s.length by omega]

theorem byteAt_toNat (o : Endian) {s : List U8} {p : Nat} (h : p + 1 ≤ s.length) :
    (byteAt s p).toNat = uintAt o s p 1 := by
  rw [uintAt, take1_drop h, natOf_cons1]

theorem readU16_toNat (o : Endian) {s : List U8} {p : Nat} (h : p + 2 ≤ s.length) :
    (readU16 o s p).toNat = uintAt o s p 2 := by
  rw [uintAt, take2_drop h]
  have h0 := (byteAt s p).isLt
  have h1 := (byteAt s (p+1)).isLt
  cases o <;> simp [natOf, readU16, u16Of] <;> omega

theorem readU32_toNat (o : Endian) {s : List U8} {p : Nat} (h : p + 4 ≤ s.length) :
    (readU32 o s p).toNat = uintAt o s p 4 := by
  rw [uintAt, take4_drop h]
  have h0 := (byteAt s p).isLt
  have h1 := (byteAt s (p+1)).isLt
  have h2 := (byteAt s (p+2)).isLt
  have h3 := (byteAt s (p+3)).isLt
  cases o <;> simp [natOf, readU32, u32Of] <;> omega

theorem toInt_eq_signed8 (x : BitVec 8) : x.toInt = signed 1 x.toNat := by
  simp only [BitVec.toInt, signed]
theorem toInt_eq_signed16 (x : BitVec 16) : x.toInt = signed 2 x.toNat := by
  simp only [BitVec.toInt, signed]
theorem toInt_eq_signed32 (x : BitVec 32) : x.toInt = signed 4 x.toNat := by
  simp only [BitVec.toInt, signed]

theorem byteAt_toInt (o : Endian) {s : List U8} {p : Nat} (h : p + 1 ≤ s.length) :
    (byteAt s p).toInt = sintAt o s p 1 := by
  rw [toInt_eq_signed8, byteAt_toNat o h, sintAt]
theorem readU16_toInt (o : Endian) {s : List U8} {p : Nat} (h : p + 2 ≤ s.length) :
    (readU16 o s p).toInt = sintAt o s p 2 := by
  rw [toInt_eq_signed16, readU16_toNat o h, sintAt]
theorem readU32_toInt (o : Endian) {s : List U8} {p : Nat} (h : p + 4 ≤ s.length) :
    (readU32 o s p).toInt = sintAt o s p 4 := by
  rw [toInt_eq_signed32, readU32_toNat o h, sintAt]

/-! ### Reading inside a part of the input -/

theorem byteAt_drop (s : List U8) (p i : Nat) : byteAt (s.drop p) i = byteAt s (p + i) := by
  simp [byteAt]

theorem readU16_drop (o : Endian) (s : List U8) (p i : Nat) :
    readU16 o (s.drop p) i = readU16 o s (p + i) := by
  simp only [readU16, byteAt_drop, Nat.add_assoc]

theorem readU32_drop (o : Endian) (s : List U8) (p i : Nat) :
    readU32 o (s.drop p) i = readU32 o s (p + i) := by
  simp only [readU32, byteAt_drop, Nat.add_assoc]

theorem byteAt_append_left {a b : List U8} {i : Nat} (h : i < a.length) :
    byteAt (a ++ b) i = byteAt a i := by
  simp [byteAt, List.getElem?_append_left h]

theorem byteAt_append_right {a b : List U8} {i : Nat} (h : a.length ≤ i) :
    byteAt (a ++ b) i = byteAt b (i - a.length) := by
  simp [byteAt, List.getElem?_append_right h]

theorem readU16_append_left (o : Endian) {a b : List U8} {i : Nat} (h : i + 2 ≤ a.length) :
    readU16 o (a ++ b) i = readU16 o a i := by
  simp only [readU16]
  rw [byteAt_append_left (by omega), byteAt_append_left (by omega)]

theorem readU32_append_left (o : Endian) {a b : List U8} {i : Nat} (h : i + 4 ≤ a.length) :
    readU32 o (a ++ b) i = readU32 o a i := by
  simp only [readU32]
  rw [byteAt_append_left (by omega), byteAt_append_left (by omega), byteAt_append_left (by omega),
    byteAt_append_left (by omega)]

theorem readU16_append_right (o : Endian) {a b : List U8} {i : Nat} (h : a.length ≤ i) :
    readU16 o (a ++ b) i = readU16 o b (i - a.length) := by
  simp only [readU16]
  rw [byteAt_append_right (by omega), byteAt_append_right (by omega),
    show i + 1 - a.length = i - a.length + 1 by omega]

theorem readU32_append_right (o : Endian) {a b : List U8} {i : Nat} (h : a.length ≤ i) :
    readU32 o (a ++ b) i = readU32 o b (i - a.length) := by
  simp only [readU32]
  rw [byteAt_append_right (by omega), byteAt_append_right (by omega),
    byteAt_append_right (by omega), byteAt_append_right (by omega),
    show i + 1 - a.length = i - a.length + 1 by omega,
    show i + 2 - a.length = i - a.length + 2 by omega,
    show i + 3 - a.length = i - a.length + 3 by omega]

/-! ### Writing then reading -/

@[simp] theorem u16Bytes_length (o : Endian) (x : U16) : (u16Bytes o x).length = 2 := by
  cases o <;> rfl
@[simp] theorem u32Bytes_length (o : Endian) (x : U32) : (u32Bytes o x).length = 4 := by
  cases o <;> rfl

theorem readU16_u16Bytes (o : Endian) (x : U16) (rest : List U8) :
    readU16 o (u16Bytes o x ++ rest) 0 = x := by
  apply BitVec.eq_of_toNat_eq
  have := x.isLt
  cases o <;> simp [readU16, u16Of, u16Bytes, byteAt] <;> omega

theorem readU32_u32Bytes (o : Endian) (x : U32) (rest : List U8) :
    readU32 o (u32Bytes o x ++ rest) 0 = x := by
  apply BitVec.eq_of_toNat_eq
  have := x.isLt
  cases o <;> simp [readU32, u32Of, u32Bytes, byteAt] <;> omega

end Verif
