import Verif.Proofs.Text
import Verif.Model.Dump
/-!
# The columns of sframedump: C116
-/

namespace Verif
namespace Spec

/-- The field `x` stands in column `k` of `line`: it begins there, and a space is before it. -/
def StandsAt (line : String) (k : Nat) (x : String) : Prop :=
  ∃ a b, line.toList = a ++ ' ' :: x.toList ++ b ∧ a.length + 1 = k

/-- What a row shows of an offset. -/
def offsetText (base : String) (x : Option I32) : String :=
  match x with
  | none => "u"
  | some v => base ++ (if v.toInt < 0 then "-" else "+") ++ toString v.toInt.natAbs

end Spec
open Spec

theorem fmtOffset_text (base : String) (x : Option I32) : fmtOffset base x = offsetText base x := by
  cases x with
  | none => rfl
  | some v =>
    unfold fmtOffset offsetText fmtSigned
    simp only [Nat.toString_eq_ofList_toDigits]
    split <;> simp [String.append_assoc]

theorem hex16_length (x : BitVec 32) : (fmtHex16 x).toList.length = 16 := by
  have h : (Nat.toDigits 16 x.toNat).length ≤ 8 := by
    rw [Nat.length_toDigits_le_iff (by omega) (by omega)]
    have := x.isLt
    omega
  simp [fmtHex16]
  omega

/-- Only the sign, the register and digits. -/
theorem offsetText_noSpace {base : String} (hb : ' ' ∉ base.toList) (x : Option I32) :
    ' ' ∉ (offsetText base x).toList := by
  rw [← fmtOffset_text]
  cases x with
  | none => simp [fmtOffset]
  | some v =>
    have hd := not_mem_toDigits (b := 10) (c := ' ') (by omega) (by omega) (by decide) v.toInt.natAbs
    simp only [fmtOffset, fmtSigned]
    split <;> simp [hb, hd]

theorem offsetText_ne_nil (base : String) (x : Option I32) : (offsetText base x).toList ≠ [] := by
  rw [← fmtOffset_text]
  cases x with
  | none => simp [fmtOffset]
  | some v => simp only [fmtOffset, fmtSigned]; split <;> simp

theorem offsetText_length {base : String} {k : Nat} (hk : base.length + 1 < k) (h1 : 0 < k) (x : Option I32) :
    (offsetText base x).toList.length ≤ k ↔ ∀ v, x = some v → v.toInt.natAbs < 10 ^ (k - base.length - 1) := by
  rw [← fmtOffset_text]
  cases x with
  | none => simp [fmtOffset]; omega
  | some v =>
    have hl : base.toList.length = base.length := String.length_toList
    have := Nat.length_toDigits_le_iff (b := 10) (n := v.toInt.natAbs) (k := k - base.length - 1) (by omega) (by omega)
    simp only [Option.some.injEq, forall_eq']
    rw [← this]
    simp only [fmtOffset, fmtSigned]
    split <;> simp <;> omega

/-- The line of a row, as a list of characters. -/
theorem row_chars (start : I32) (base : BaseReg) (cfa fp ra : Option I32) (mangled : Bool) (line : String)
    (h : (DumpLine.row start base cfa fp ra mangled).text = some line) :
    ∃ pre : List Char, pre.length = 18 ∧ ∃ m : List Char,
      line.toList = pre ++ ' ' :: (offsetText (fmtBase base) cfa).toList ++
        List.replicate (12 - (offsetText (fmtBase base) cfa).toList.length) ' ' ++
        ' ' :: (offsetText "cfa" fp).toList ++
        List.replicate (12 - (offsetText "cfa" fp).toList.length) ' ' ++
        ' ' :: (offsetText "cfa" ra).toList ++ m := by
  cases h
  refine ⟨' ' :: ' ' :: (fmtHex16 start).toList, by simp [hex16_length], (if mangled then " [s]" else "").toList, ?_⟩
  simp only [fmtOffset_text, padRight12, String.toList_append, String.toList_ofList, String.length_toList]
  simp [List.append_assoc]


/-- What follows from a field standing in column `k`. -/
theorem standsAt_chars {line : String} {k : Nat} {x : String} (h : StandsAt line k x) (hx : x.toList ≠ []) :
    line.toList[k - 1]? = some ' ' ∧ line.toList[k]? = x.toList.head? := by
  obtain ⟨a, b, h1, h2⟩ := h
  subst h2
  rw [h1]
  cases hc : x.toList with
  | nil => exact absurd hc hx
  | cons c l =>
    constructor
    · simp
    · rw [List.append_assoc, List.getElem?_append_right (by omega)]
      simp

/-- The fields of a row: the CFA always stands in its column; the others if those before them are not too long. -/
theorem row_columns {pre C F R m : List Char} {line c f r : String} (hpre : pre.length = 18)
    (hC : c.toList = C) (hF : f.toList = F) (hR : r.toList = R)
    (h1 : ' ' ∉ C) (h2 : ' ' ∉ F) (h3 : ' ' ∉ R) (h4 : F ≠ []) (h5 : R ≠ []) (h6 : C.length ≤ 24)
    (h : line.toList = pre ++ ' ' :: C ++ List.replicate (12 - C.length) ' ' ++
      ' ' :: F ++ List.replicate (12 - F.length) ' ' ++ ' ' :: R ++ m) :
    StandsAt line 19 c ∧ (StandsAt line 32 f ↔ C.length ≤ 12) ∧
    (StandsAt line 45 r ↔ C.length ≤ 12 ∧ F.length ≤ 12) := by
  refine ⟨⟨pre, List.replicate (12 - C.length) ' ' ++ ' ' :: F ++ List.replicate (12 - F.length) ' ' ++ ' ' :: R ++ m,
    by rw [h, hC]; simp [List.append_assoc], by omega⟩, ⟨fun hs => ?_, fun hc => ?_⟩, ⟨fun hs => ?_, fun hc => ?_⟩⟩
  · apply Classical.byContradiction
    intro hn
    have hs := (standsAt_chars hs (by rw [hF]; exact h4)).1
    rw [h] at hs
    have : (pre ++ ' ' :: C ++ (List.replicate (12 - C.length) ' ' ++
      ' ' :: F ++ List.replicate (12 - F.length) ' ' ++ ' ' :: R ++ m))[32 - 1]? = C[12]? := by
      rw [List.getElem?_append_left (by simp; omega), List.getElem?_append_right (by omega), hpre]
      rfl
    simp only [List.append_assoc] at this hs
    rw [this] at hs
    exact h1 (List.mem_of_getElem? hs)
  · refine ⟨pre ++ ' ' :: C ++ List.replicate (12 - C.length) ' ',
      List.replicate (12 - F.length) ' ' ++ ' ' :: R ++ m, by rw [h, hF]; simp [List.append_assoc], ?_⟩
    simp; omega
  · apply Classical.byContradiction
    intro hn
    have hs := standsAt_chars hs (by rw [hR]; exact h5)
    rw [h] at hs
    by_cases hpos : 45 < 20 + max C.length 12 + F.length
    · have : (pre ++ ' ' :: C ++ List.replicate (12 - C.length) ' ' ++ ' ' :: F ++
          (List.replicate (12 - F.length) ' ' ++ ' ' :: R ++ m))[45 - 1]? = F[44 - (20 + max C.length 12)]? := by
        rw [List.getElem?_append_left (by simp; omega), List.getElem?_append_right (by simp; omega)]
        simp only [List.length_append, List.length_cons, List.length_replicate, hpre]
        rw [show 45 - 1 - (18 + (C.length + 1) + (12 - C.length)) = (44 - (20 + max C.length 12)) + 1 by omega]
        rfl
      have hs := hs.1
      simp only [List.append_assoc] at this hs
      rw [this] at hs
      exact h2 (List.mem_of_getElem? hs)
    · have hlen : C.length + (12 - C.length) = max C.length 12 := by omega
      have hlen' : F.length + (12 - F.length) = max F.length 12 := by omega
      have : (pre ++ ' ' :: C ++ List.replicate (12 - C.length) ' ' ++ ' ' :: F ++
          List.replicate (12 - F.length) ' ' ++ ' ' :: R ++ m)[45]? = some ' ' := by
        have e : pre ++ ' ' :: C ++ List.replicate (12 - C.length) ' ' ++ ' ' :: F ++
            List.replicate (12 - F.length) ' ' ++ ' ' :: R ++ m =
          (pre ++ ' ' :: C ++ List.replicate (12 - C.length) ' ' ++ ' ' :: F) ++
            (List.replicate (12 - F.length + 1) ' ' ++ (R ++ m)) := by
          simp [List.replicate_succ', List.append_assoc]
        rw [e, List.getElem?_append_right (by simp; omega), List.getElem?_append_left (by simp; omega),
          List.getElem?_replicate, if_pos (by simp; omega)]
      rw [this, hR] at hs
      exact h3 (List.mem_of_head? hs.2.symm)
  · refine ⟨pre ++ ' ' :: C ++ List.replicate (12 - C.length) ' ' ++ ' ' :: F ++ List.replicate (12 - F.length) ' ',
      m, by rw [h, hR], ?_⟩
    simp; omega

/-! ### C116 -/

/-- The heading of a function's rows. -/
theorem C116_heading (ty : FdeType) : ∃ line, (DumpLine.columns ty).text = some line ∧
    StandsAt line 19 "CFA" ∧ StandsAt line 32 "FP" ∧ StandsAt line 45 "RA" := by
  have h : (DumpLine.columns ty).text = some ("  STARTPC " ++ fmtMarker ty ++ "      CFA          FP           RA") := rfl
  refine ⟨_, h, ⟨"  STARTPC ".toList ++ (fmtMarker ty).toList ++ "     ".toList, "          FP           RA".toList, ?_, ?_⟩,
    ⟨"  STARTPC ".toList ++ (fmtMarker ty).toList ++ "      CFA         ".toList, "           RA".toList, ?_, ?_⟩,
    ⟨"  STARTPC ".toList ++ (fmtMarker ty).toList ++ "      CFA          FP          ".toList, [], ?_, ?_⟩⟩ <;>
    cases ty <;> decide +kernel

/-- **C116**, what holds: the fields of a row stand under their headings (`C116_heading`) exactly if the offset of the
CFA has at most nine digits and that of the FP at most eight.
Missing: the other rows, in which the fields are shifted. -/
theorem C116_columns_partial (start : I32) (base : BaseReg) (cfa fp ra : Option I32) (mangled : Bool) (line : String)
    (h : (DumpLine.row start base cfa fp ra mangled).text = some line) :
    StandsAt line 19 (offsetText (fmtBase base) cfa) ∧
    ((StandsAt line 32 (offsetText "cfa" fp) ∧ StandsAt line 45 (offsetText "cfa" ra)) ↔
      (∀ v, cfa = some v → v.toInt.natAbs < 10 ^ 9) ∧ ∀ v, fp = some v → v.toInt.natAbs < 10 ^ 8) := by
  obtain ⟨pre, hpre, m, hm⟩ := row_chars start base cfa fp ra mangled line h
  have hb : (fmtBase base).length = 2 ∧ ' ' ∉ (fmtBase base).toList := by cases base <;> decide
  have l1 := offsetText_length (base := fmtBase base) (k := 12) (by omega) (by omega) cfa
  have l2 := offsetText_length (base := "cfa") (k := 12) (by decide) (by omega) fp
  have l3 := offsetText_length (base := fmtBase base) (k := 24) (by omega) (by omega) cfa
  rw [hb.1] at l1 l3
  obtain ⟨h1, h2, h3⟩ := row_columns hpre rfl rfl rfl (offsetText_noSpace hb.2 cfa) (offsetText_noSpace (by decide) fp)
    (offsetText_noSpace (by decide) ra) (offsetText_ne_nil _ _) (offsetText_ne_nil _ _) (l3.2 fun v _ => by
      have h1 := BitVec.le_toInt v
      have h2 := BitVec.toInt_lt (x := v)
      omega) hm
  refine ⟨h1, ?_⟩
  rw [h2, h3, l1, l2]
  exact ⟨fun h => h.2, fun h => ⟨h.1, h⟩⟩

/-- **C116**, the negation: a row whose FP and RA do not stand under their headings. -/
theorem C116_shifted : ∃ line, (DumpLine.row 0 .sp (some 1000000000) (some (-16)) (some (-8)) false).text = some line ∧
    ¬ StandsAt line 32 (offsetText "cfa" (some (-16))) ∧ ¬ StandsAt line 45 (offsetText "cfa" (some (-8))) := by
  refine ⟨_, rfl, fun h => ?_, fun h => ?_⟩
  · have := (standsAt_chars h (by decide +kernel)).1
    revert this
    decide +kernel
  · have := (standsAt_chars h (by decide +kernel)).2
    revert this
    decide +kernel

/-- An ordinary row. -/
example : (DumpLine.row 0x1004 .sp (some 16) (some (-16)) (some (-8)) true).text =
      some "  0000000000001004 sp+16        cfa-16       cfa-8 [s]" ∧
    (DumpLine.columns .pcMask).text = some "  STARTPC [m]      CFA          FP           RA" ∧
    (∀ v, some (16 : I32) = some v → v.toInt.natAbs < 10 ^ 9) ∧ ∀ v, some (-16 : I32) = some v → v.toInt.natAbs < 10 ^ 8 := by
  refine ⟨by decide +kernel, by decide +kernel, ?_, ?_⟩ <;> (intro v h; cases h; decide)

end Verif
