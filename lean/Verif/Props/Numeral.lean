import Verif.Spec.Numeral
import Verif.Model.Process
import Verif.Model.Dwarfdump
import Verif.Props.Texts
import Verif.Props.Cfi
/-!
# Printed numbers read back as themselves: C119
-/

namespace Verif
open Spec

theorem digit_digitChar {d : Nat} (h : d < 16) : Numeral.digit d.digitChar = some d := by
  have : ∀ d ∈ List.range 16, Numeral.digit d.digitChar = some d := by decide +kernel
  exact this d (List.mem_range.2 h)

theorem readFrom_append (b a : Nat) (l r : List Char) :
    Numeral.readFrom b a (l ++ r) = (Numeral.readFrom b a l).bind fun x => Numeral.readFrom b x r := by
  induction l generalizing a with
  | nil => rfl
  | cons c l ih =>
    simp only [List.cons_append, Numeral.readFrom]
    cases Numeral.digit c with
    | none => rfl
    | some d =>
      simp only
      split
      · exact ih _
      · rfl

theorem readFrom_toDigits {b : Nat} (h1 : 1 < b) (h2 : b ≤ 16) (n : Nat) :
    Numeral.readFrom b 0 (Nat.toDigits b n) = some n := by
  induction n using Nat.strongRecOn with
  | _ n ih =>
    by_cases hn : n < b
    · rw [Nat.toDigits_of_lt_base hn]
      simp [Numeral.readFrom, digit_digitChar (show n < 16 by omega), hn]
    · have hm : n % b < b := Nat.mod_lt _ (by omega)
      rw [Nat.toDigits_of_base_le h1 (by omega), readFrom_append,
        ih (n / b) (Nat.div_lt_self (by omega) h1)]
      simp only [Option.bind_some, Numeral.readFrom, digit_digitChar (show n % b < 16 by omega), hm, if_true]
      rw [Nat.div_add_mod]

theorem readFrom_zeros {b : Nat} (h : 0 < b) (k : Nat) (l : List Char) :
    Numeral.readFrom b 0 (List.replicate k '0' ++ l) = Numeral.readFrom b 0 l := by
  induction k with
  | zero => rfl
  | succ k ih =>
    have : Numeral.digit '0' = some 0 := by decide +kernel
    rw [List.replicate_succ, List.cons_append, Numeral.readFrom, this]
    simp only [h, if_true, Nat.mul_zero, Nat.add_zero]
    exact ih

theorem read_pad {b : Nat} (h1 : 1 < b) (h2 : b ≤ 16) (k n : Nat) :
    Numeral.read b (List.replicate k '0' ++ Nat.toDigits b n) = some n := by
  have : List.replicate k '0' ++ Nat.toDigits b n ≠ [] := by
    intro h
    have h := (List.append_eq_nil_iff.1 h).2
    have h3 := readFrom_toDigits h1 h2 n
    by_cases hn : n < b
    · rw [Nat.toDigits_of_lt_base hn] at h; cases h
    · rw [Nat.toDigits_of_base_le h1 (by omega)] at h
      exact absurd (List.append_eq_nil_iff.1 h).2 (by simp)
  rw [Numeral.read, if_neg this, readFrom_zeros (by omega), readFrom_toDigits h1 h2]

theorem read_toDigits {b : Nat} (h1 : 1 < b) (h2 : b ≤ 16) (n : Nat) :
    Numeral.read b (Nat.toDigits b n) = some n := read_pad h1 h2 0 n

/-- Decimal digits begin with no sign. -/
theorem readInt_toDigits (n : Nat) : Numeral.readInt (Nat.toDigits 10 n) = some (n : Int) := by
  have hd := isDigit_toDigits (b := 10) (by omega) (by omega) n
  have h := read_toDigits (b := 10) (by omega) (by omega) n
  unfold Numeral.readInt
  split
  · next l e => exact absurd (hd '-' (by rw [e]; simp)) (by decide)
  · next l e => exact absurd (hd '+' (by rw [e]; simp)) (by decide)
  · rw [h]; rfl

/-- **C119**: unsigned decimal numbers. -/
theorem C119_decimal (n : Nat) : Numeral.read 10 (fmtNat n).toList = some n := by
  rw [fmtNat_toList]; exact read_toDigits (by omega) (by omega) n

/-- **C119**: signed numbers, with a sign where it is asked for. -/
theorem C119_signed :
    (∀ {n : Nat} (x : BitVec n), Numeral.readInt (fmtInt x).toList = some x.toInt) ∧
    (∀ x : I32, Numeral.readInt (fmtSigned x).toList = some x.toInt ∧
      ((fmtSigned x).toList.head? = some '-' ↔ x.toInt < 0) ∧
      ((fmtSigned x).toList.head? = some '+' ↔ 0 ≤ x.toInt)) ∧
    (∀ x : I64, Numeral.readInt (fmtSigned64 x).toList = some x.toInt ∧
      ((fmtSigned64 x).toList.head? = some '-' ↔ x.toInt < 0) ∧
      ((fmtSigned64 x).toList.head? = some '+' ↔ 0 ≤ x.toInt)) ∧
    (∀ x : I8, Numeral.readInt (fmtFixed (some x)).toList = some x.toInt) := by
  have hr (n : Nat) := read_toDigits (b := 10) (by omega) (by omega) n
  refine ⟨fun x => ?_, fun x => ?_, fun x => ?_, fun x => ?_⟩
  · unfold fmtInt
    split
    · simp [fmtNat, Numeral.readInt, hr]; omega
    · rw [fmtNat_toList, readInt_toDigits]; congr 1; omega
  · unfold fmtSigned
    split
    · refine ⟨by simp [Numeral.readInt, hr]; omega, by simp; omega, by simp; omega⟩
    · refine ⟨by simp [Numeral.readInt, hr]; omega, by simp; omega, by simp; omega⟩
  · unfold fmtSigned64
    split
    · refine ⟨by simp [fmtNat, Numeral.readInt, hr]; omega, by simp; omega, by simp; omega⟩
    · refine ⟨by simp [fmtNat, Numeral.readInt, hr]; omega, by simp; omega, by simp; omega⟩
  · unfold fmtFixed
    simp only
    split
    · simp [Numeral.readInt, hr]; omega
    · have : ("" ++ String.ofList (Nat.toDigits 10 x.toInt.natAbs)).toList = Nat.toDigits 10 x.toInt.natAbs := by simp
      rw [this, readInt_toDigits]; congr 1; omega

/-- **C119**: numbers in base 16, with and without prefix and zeros. -/
theorem C119_hex :
    (∀ x : BitVec 32, Numeral.read 16 (fmtHex x).toList = some x.toNat ∧
      Numeral.read 16 (fmtHex16 x).toList = some x.toNat) ∧
    (∀ x : U64, Numeral.read 16 (fmtHex64 x).toList = some x.toNat) ∧
    (∀ n, Numeral.readHex (fmtAltHex n).toList = some n) ∧
    (∀ w n, Numeral.readHex (fmtAltHexPad w n).toList = some n) := by
  refine ⟨fun x => ⟨?_, ?_⟩, fun x => ?_, fun n => ?_, fun w n => ?_⟩
  · simp [fmtHex, read_toDigits]
  · simp [fmtHex16, read_pad]
  · simp [fmtHex64, read_toDigits]
  · rw [fmtAltHex_toList]; simp [Numeral.readHex, read_toDigits]
  · rw [fmtAltHexPad_toList]; simp [Numeral.readHex, read_pad]

theorem toDigits16_length {n k : Nat} (hk : 0 < k) (h : n < 16 ^ k) : (Nat.toDigits 16 n).length ≤ k :=
  (Nat.length_toDigits_le_iff (by omega) hk).2 h

/-- **C119**: a number that fits is printed in exactly the width asked for. -/
theorem C119_width {w n : Nat} (hw : 2 < w) (h : n < 16 ^ (w - 2)) : (fmtAltHexPad w n).toList.length = w := by
  have := toDigits16_length (by omega) h
  rw [fmtAltHexPad_toList]
  simp only [List.length_cons, List.length_append, List.length_replicate]
  omega

/-- **C119**: a pointer is printed as 18 characters that read back as it, and in parentheses exactly if
it is indirect. -/
theorem C119_pointer (p : U64) :
    ((Pointer.direct p).text.toList.length = 18 ∧ Numeral.readHex (Pointer.direct p).text.toList = some p.toNat) ∧
    ∃ l, (Pointer.indirect p).text.toList = '(' :: (l ++ [')']) ∧ l.length = 18 ∧
      Numeral.readHex l = some p.toNat := by
  have hp : p.toNat < 16 ^ (18 - 2) := by have := p.isLt; omega
  refine ⟨⟨C119_width (by omega) hp, C119_hex.2.2.2 _ _⟩, (fmtAltHexPad 18 p.toNat).toList, ?_,
    C119_width (by omega) hp, C119_hex.2.2.2 _ _⟩
  simp [Pointer.text]

/-- **C119**: truth values. -/
theorem C119_bool (b : Bool) : (fmtBool b = "true" ↔ b = true) ∧ (fmtBool b = "false" ↔ b = false) := by
  cases b <;> decide +kernel

example : Numeral.readInt (fmtSigned (-300#32)).toList = some (-300) ∧
    Numeral.read 16 (fmtHex64 0xffff800000001000#64).toList = some 0xffff800000001000 ∧
    (Pointer.indirect 0x401000#64).text = "(0x0000000000401000)" ∧
    Numeral.read 10 "1f".toList = none ∧ Numeral.read 10 [] = none := by decide +kernel

end Verif
