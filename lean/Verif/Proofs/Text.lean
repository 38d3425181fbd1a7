import Verif.Model.Dump
/-!
# The printed numbers and lines can be read back
-/

namespace Verif

/-! ### Digits -/

/-- The value of a digit. -/
def digitVal (c : Char) : Nat := ((List.range 16).find? fun d => d.digitChar == c).getD 0

theorem digitVal_digitChar {d : Nat} (h : d < 16) : digitVal d.digitChar = d := by
  have : ∀ d ∈ List.range 16, digitVal d.digitChar = d := by decide
  exact this d (List.mem_range.2 h)

/-- The number written by digits in base `b`. -/
def undigits (b : Nat) (l : List Char) : Nat := l.foldl (fun a c => b * a + digitVal c) 0

theorem undigits_toDigits {b : Nat} (h1 : 1 < b) (h2 : b ≤ 16) (n : Nat) :
    undigits b (Nat.toDigits b n) = n := by
  induction n using Nat.strongRecOn with
  | _ n ih =>
    by_cases hn : n < b
    · rw [Nat.toDigits_of_lt_base hn]
      simp [undigits, digitVal_digitChar (show n < 16 by omega)]
    · rw [Nat.toDigits_of_base_le h1 (by omega)]
      have := ih (n / b) (Nat.div_lt_self (by omega) h1)
      unfold undigits at this ⊢
      rw [List.foldl_append, this]
      have hm : n % b < b := Nat.mod_lt _ (by omega)
      simp only [List.foldl_cons, List.foldl_nil, digitVal_digitChar (show n % b < 16 by omega)]
      exact Nat.div_add_mod n b

theorem toDigits_inj {b m n : Nat} (h1 : 1 < b) (h2 : b ≤ 16) (h : Nat.toDigits b m = Nat.toDigits b n) :
    m = n := by
  rw [← undigits_toDigits h1 h2 m, h, undigits_toDigits h1 h2]

/-- A digit in base 16. -/
def IsDigit (c : Char) : Prop := c ∈ (List.range 16).map Nat.digitChar

instance : DecidablePred IsDigit := fun c => inferInstanceAs (Decidable (c ∈ _))

theorem isDigit_digitChar {d : Nat} (h : d < 16) : IsDigit d.digitChar :=
  List.mem_map.2 ⟨d, List.mem_range.2 h, rfl⟩

theorem isDigit_toDigits {b : Nat} (h1 : 1 < b) (h2 : b ≤ 16) (n : Nat) :
    ∀ c ∈ Nat.toDigits b n, IsDigit c := by
  induction n using Nat.strongRecOn with
  | _ n ih =>
    by_cases hn : n < b
    · rw [Nat.toDigits_of_lt_base hn]
      simp only [List.mem_singleton]
      rintro c rfl
      exact isDigit_digitChar (by omega)
    · rw [Nat.toDigits_of_base_le h1 (by omega)]
      intro c hc
      rcases List.mem_append.1 hc with hc | hc
      · exact ih (n / b) (Nat.div_lt_self (by omega) h1) c hc
      · rw [List.mem_singleton.1 hc]
        have hm : n % b < b := Nat.mod_lt _ (by omega)
        exact isDigit_digitChar (by omega)

theorem IsDigit.ne {c d : Char} (h : IsDigit c) (hd : ¬ IsDigit d) : c ≠ d := by
  rintro rfl; exact hd h

/-! ### Separators -/

/-- What precedes the first separator, and what follows it. -/
theorem sep_inj {sep : Char} {a a' r r' : List Char} (ha : sep ∉ a) (ha' : sep ∉ a')
    (h : a ++ sep :: r = a' ++ sep :: r') : a = a' ∧ r = r' := by
  induction a generalizing a' with
  | nil =>
    cases a' with
    | nil => simpa using h
    | cons x a' => simp at h; exact absurd (by simp [h.1]) ha'
  | cons x a ih =>
    cases a' with
    | nil => simp at h; exact absurd (by simp [h.1]) ha
    | cons y a' =>
      simp only [List.cons_append, List.cons.injEq] at h
      simp only [List.mem_cons, not_or] at ha ha'
      obtain ⟨h1, h2⟩ := ih ha.2 ha'.2 h.2
      exact ⟨by rw [h.1, h1], h2⟩

/-! ### Fields of a row -/

theorem toDigits10_inj {m n : Nat} : Nat.toDigits 10 m = Nat.toDigits 10 n → m = n :=
  toDigits_inj (by omega) (by omega)

theorem toDigits16_inj {m n : Nat} : Nat.toDigits 16 m = Nat.toDigits 16 n → m = n :=
  toDigits_inj (by omega) (by omega)

theorem toInt_of_sign {n : Nat} {x y : BitVec n} (hs : x.toInt < 0 ↔ y.toInt < 0)
    (ha : x.toInt.natAbs = y.toInt.natAbs) : x = y := by
  apply BitVec.eq_of_toInt_eq
  omega

theorem fmtSigned_inj {x y : I32} (h : fmtSigned x = fmtSigned y) : x = y := by
  have h := congrArg String.toList h
  unfold fmtSigned at h
  split at h <;> split at h <;>
    simp only [String.toList_append, String.toList_ofList] at h <;>
    simp at h
  · exact toInt_of_sign (by omega) (toDigits10_inj h)
  · exact toInt_of_sign (by omega) (toDigits10_inj h)

theorem fmtOffset_inj {a : String} {x y : Option I32} (ha : ∀ r, a.toList ++ r ≠ ['u'])
    (h : fmtOffset a x = fmtOffset a y) : x = y := by
  have h' := congrArg String.toList h
  cases x with
  | none =>
    cases y with
    | none => rfl
    | some y =>
      simp only [fmtOffset, String.toList_append] at h'
      exact absurd h'.symm (ha _)
  | some x =>
    cases y with
    | none =>
      simp only [fmtOffset, String.toList_append] at h'
      exact absurd h' (ha _)
    | some y =>
      simp only [fmtOffset, String.toList_append, List.append_cancel_left_eq] at h'
      rw [fmtSigned_inj (String.toList_injective h')]

/-- The CFA column also tells the base register, unless the offset is unknown. -/
theorem fmtOffset_base_inj {b b' : BaseReg} {x y : Option I32}
    (h : fmtOffset (fmtBase b) x = fmtOffset (fmtBase b') y) : x = y ∧ (x ≠ none → b = b') := by
  by_cases hb : b = b'
  · subst hb
    refine ⟨fmtOffset_inj ?_ h, fun _ => rfl⟩
    cases b <;> simp [fmtBase]
  · have h' := congrArg String.toList h
    cases b <;> cases b' <;> first | exact absurd rfl hb | skip
    all_goals
      cases x <;> cases y <;> simp [fmtOffset, fmtBase] at h' ⊢

theorem not_mem_toDigits {b : Nat} {c : Char} (h1 : 1 < b) (h2 : b ≤ 16) (hc : ¬ IsDigit c) (n : Nat) :
    c ∉ Nat.toDigits b n := fun h => hc (isDigit_toDigits h1 h2 n c h)

theorem not_mem_fmtSigned {c : Char} (hc : ¬ IsDigit c) (h1 : c ≠ '+') (h2 : c ≠ '-') (x : I32) :
    c ∉ (fmtSigned x).toList := by
  unfold fmtSigned
  split <;>
    simp [String.toList_append, not_mem_toDigits (b := 10) (by omega) (by omega) hc, h1, h2]

theorem not_mem_fmtOffset {c : Char} (hc : ¬ IsDigit c) (h1 : c ≠ '+') (h2 : c ≠ '-') (hu : c ≠ 'u')
    {base : String} (hb : c ∉ base.toList) (x : Option I32) : c ∉ (fmtOffset base x).toList := by
  cases x with
  | none => simpa [fmtOffset] using hu
  | some x =>
    simp only [fmtOffset, String.toList_append, List.mem_append, not_or]
    exact ⟨hb, not_mem_fmtSigned hc h1 h2 x⟩

theorem not_mem_fmtBase {c : Char} (h : c ∉ ['f', 's', 'p']) (b : BaseReg) : c ∉ (fmtBase b).toList := by
  cases b <;> simp [fmtBase] at h ⊢ <;> simp [h]

theorem fmtFixed_inj {x y : Option I8} (h : fmtFixed x = fmtFixed y) : x = y := by
  have hd : ∀ (n : Nat) c, c ∈ Nat.toDigits 10 n → IsDigit c := fun n =>
    isDigit_toDigits (by omega) (by omega) n
  have key : ∀ x : I8, (fmtFixed (some x)).toList ≠ (fmtFixed none).toList := by
    intro x h
    simp only [fmtFixed, String.toList_append, String.toList_ofList] at h
    have hn : 'n' ∈ (if x.toInt < 0 then "-" else "").toList ++ Nat.toDigits 10 x.toInt.natAbs := by
      rw [h]; decide
    rcases List.mem_append.1 hn with hn | hn
    · split at hn <;> simp at hn
    · exact absurd (hd _ _ hn) (by decide)
  cases x with
  | none =>
    cases y with
    | none => rfl
    | some y => exact absurd (congrArg String.toList h).symm (key y)
  | some x =>
    cases y with
    | none => exact absurd (congrArg String.toList h) (key x)
    | some y =>
      have h := congrArg String.toList h
      simp only [fmtFixed, String.toList_append, String.toList_ofList] at h
      have hminus : ∀ (n : Nat) l, Nat.toDigits 10 n ≠ '-' :: l := by
        intro n l hl
        exact absurd (hd n '-' (by rw [hl]; simp)) (by decide)
      split at h <;> split at h
      · simp at h; rw [toInt_of_sign (by omega) (toDigits10_inj h)]
      · simp at h; exact absurd h.symm (hminus _ _)
      · simp at h; exact absurd h (hminus _ _)
      · simp at h; rw [toInt_of_sign (by omega) (toDigits10_inj h)]

theorem not_mem_fmtFixed (x : Option I8) : '\n' ∉ (fmtFixed x).toList := by
  cases x with
  | none => decide
  | some x =>
    simp only [fmtFixed, String.toList_append, String.toList_ofList, List.mem_append, not_or]
    refine ⟨by split <;> simp, not_mem_toDigits (by omega) (by omega) (by decide) _⟩

/-- The 16 digits of an address. -/
theorem fmtHex16_length (x : BitVec 32) : (fmtHex16 x).toList.length = 16 := by
  have : (Nat.toDigits 16 x.toNat).length ≤ 8 :=
    (Nat.length_toDigits_le_iff (by omega) (by omega)).2 (by have := x.isLt; omega)
  simp only [fmtHex16, String.toList_ofList, List.length_append, List.length_replicate]
  omega

theorem undigits_pad (k : Nat) (l : List Char) : undigits 16 (List.replicate k '0' ++ l) = undigits 16 l := by
  induction k with
  | zero => rfl
  | succ k ih =>
    rw [List.replicate_succ, List.cons_append]
    have : digitVal '0' = 0 := by decide
    unfold undigits at ih ⊢
    rw [List.foldl_cons, this]
    exact ih

theorem fmtHex16_inj {x y : BitVec 32} (h : fmtHex16 x = fmtHex16 y) : x = y := by
  have h := congrArg (fun s => undigits 16 s.toList) h
  simp only [fmtHex16, String.toList_ofList, undigits_pad, undigits_toDigits (b := 16) (by omega) (Nat.le_refl _)] at h
  exact BitVec.eq_of_toNat_eq h

theorem not_mem_fmtHex16 {c : Char} (hc : ¬ IsDigit c) (x : BitVec 32) : c ∉ (fmtHex16 x).toList := by
  simp only [fmtHex16, String.toList_ofList, List.mem_append, not_or]
  refine ⟨fun h => ?_, not_mem_toDigits (by omega) (by omega) hc _⟩
  have := (List.mem_replicate.1 h).2
  subst this
  exact hc (by decide)

/-- A padded column followed by a space. -/
theorem padRight12_toList (s : String) :
    (padRight12 s).toList = s.toList ++ List.replicate (12 - s.length) ' ' := by
  simp [padRight12]

theorem padded_inj {a b : String} {r r' : List Char} (ha : ' ' ∉ a.toList) (hb : ' ' ∉ b.toList)
    (h : (padRight12 a).toList ++ ' ' :: r = (padRight12 b).toList ++ ' ' :: r') : a = b ∧ r = r' := by
  rw [padRight12_toList, padRight12_toList, List.append_assoc, List.append_assoc] at h
  have hrep : ∀ (k : Nat) (r : List Char), ∃ t, List.replicate k ' ' ++ ' ' :: r = ' ' :: t := by
    intro k r
    cases k with
    | zero => exact ⟨r, rfl⟩
    | succ k => exact ⟨_, by rw [List.replicate_succ, List.cons_append]⟩
  obtain ⟨t, ht⟩ := hrep (12 - a.length) r
  obtain ⟨t', ht'⟩ := hrep (12 - b.length) r'
  have hab : a = b := by
    rw [ht, ht'] at h
    exact String.toList_injective (sep_inj ha hb h).1
  subst hab
  simpa using h

end Verif
