import Verif.Props.Lookup
/-!
# Which row a lookup returns, for all function types and all inputs: C64
-/

namespace Verif
open Spec

variable {o : Endian}

/-- The documented condition for a row to apply at offset `off` of a function of type `t` (read.rs:313-333):
`PC >= START`, `PC % REP >= START`, and `PC & START >= START`, that is, all bits of the start are set
in the offset. -/
def Spec.Applies (t : FdeType) (rep off : Nat) (v : FreView) : Bool :=
  match t with
  | .pcInc => decide (v.start ≤ off)
  | .pcMask => decide (v.start ≤ off % rep)
  | .pcMaskV1 => (List.range 32).all fun i => !v.start.testBit i || off.testBit i

/-- Rows in order: the first that cannot be decoded is an error, the first that starts outside the
function a panic, the first that applies the result. -/
def Spec.firstApplying (size : Nat) (m : FreView → Bool) :
    List (Except ReadError FreView) → Rust (Except ReadError (Option FreView))
  | [] => .ok (.ok none)
  | .error e :: _ => .ok (.error e)
  | .ok v :: vs =>
    if ¬ v.start < size then .panic .assertion
    else if m v then .ok (.ok (some v)) else firstApplying size m vs

/-- What a lookup shows of the row it finds. -/
def Spec.seen (x : Rust (Except ReadError (Option (FrameRowEntry o)))) :
    Rust (Except ReadError (Option FreView)) :=
  x.bind fun r => .ok (r.map (·.map FrameRowEntry.view))

theorem scanRows_views (p : FrameRowEntry o → Bool) (m : FreView → Bool) (fde : Fde)
    (hp : ∀ r, p r = m r.view) (n : Nat) (fres : List U8) :
    seen (scanRows o p fde n fres)
      = firstApplying fde.size.toNat m (decodeFres o fde.info.toNat n fres) := by
  induction n generalizing fres with
  | zero => rfl
  | succ n ih =>
    have hs := freLoad_spec o fde fres
    unfold scanRows decodeFres
    cases hd : decodeFre o fde.info.toNat fres with
    | error e =>
      rw [hd] at hs
      simp only at hs
      rw [hs]; rfl
    | ok x =>
      obtain ⟨v, rest⟩ := x
      rw [hd] at hs
      simp only at hs ⊢
      unfold firstApplying
      by_cases hv : v.start < fde.size.toNat
      · rw [if_pos hv] at hs
        obtain ⟨r, h1, h2, _⟩ := hs
        have hv' : ¬ ¬ v.start < fde.size.toNat := by omega
        rw [h1, if_neg hv', ← h2, ← hp]
        simp only [Rust.bind_ok]
        cases p r with
        | true => rfl
        | false => exact ih rest
      · rw [if_neg hv] at hs
        rw [hs, if_pos hv]; rfl

/-- The mask condition, bit by bit. -/
theorem mask_iff (x m : U32) :
    (x &&& m).toNat ≥ m.toNat ↔ ∀ i < 32, m.toNat.testBit i = true → x.toNat.testBit i = true := by
  constructor
  · intro h i hi hm
    have heq : (x &&& m).toNat = m.toNat := by
      rw [BitVec.toNat_and] at *
      exact Nat.le_antisymm Nat.and_le_right h
    rw [BitVec.toNat_and] at heq
    have := congrArg (fun n => n.testBit i) heq
    simp only [Nat.testBit_and, hm, Bool.and_true] at this
    exact this
  · intro h
    apply Nat.le_of_eq
    rw [BitVec.toNat_and]
    apply Nat.eq_of_testBit_eq
    intro i
    rw [Nat.testBit_and]
    cases hm : m.toNat.testBit i with
    | false => simp
    | true =>
      by_cases hi : i < 32
      · rw [h i hi hm]; rfl
      · rw [Nat.testBit_lt_two_pow (Nat.lt_of_lt_of_le m.isLt (Nat.pow_le_pow_right (by decide) (by omega)))] at hm
        cases hm

theorem lookup_views (dbg : Bool) (e : FuncDescEntry o) (a : I32) (c1 : e.startAddress.toInt ≤ a.toInt)
    (c2 : a.toInt ≤ e.startAddress.toInt + e.size.toNat) (hd : NoOverflow dbg e a) :
    seen (e.getFreForAddress dbg a) =
      if e.fdetype = .pcMask ∧ e.repBlockSize = some 0 then .ok (.error .invalidFdeRepBlockSize)
      else firstApplying e.size.toNat
        (Applies e.fdetype ((e.repBlockSize.map BitVec.toNat).getD 0) (a.toInt - e.startAddress.toInt).toNat)
        (decodeFres o e.fde.info.toNat e.fde.numFres.toNat e.fres) := by
  obtain ⟨rel, hrel, h⟩ := getFre_upto c1 c2 hd
  rw [h, ← hrel, Int.toNat_natCast]
  cases ht : e.fdetype with
  | pcInc =>
    simp only [FuncDescEntry.scan_eq]
    rw [scanRows_views _ (Applies .pcInc ((e.repBlockSize.map BitVec.toNat).getD 0) rel.toNat)]
    · rfl
    · intro r; rfl
  | pcMask =>
    cases hb : e.repBlockSize with
    | none =>
      exfalso
      unfold FuncDescEntry.fdetype Fde.fdetype at ht
      unfold FuncDescEntry.repBlockSize Fde.repSize at hb
      cases hf : e.fde with
      | v1 x => rw [hf] at ht; simp only at ht; split at ht <;> cases ht
      | v2 x => rw [hf] at hb; cases hb
    | some b =>
      by_cases hz : b = 0
      · subst hz; rfl
      · have hz' : ¬ b.setWidth 32 = 0#32 := by
          intro h
          apply hz
          apply BitVec.eq_of_toNat_eq
          have := congrArg BitVec.toNat h
          rw [BitVec.toNat_setWidth] at this
          have := b.isLt
          simp at *
          omega
        have hn : ¬ (FdeType.pcMask = .pcMask ∧ some b = some 0) := by simpa using hz
        rw [if_neg hn]
        simp only [if_neg hz', FuncDescEntry.scan_eq]
        rw [scanRows_views _ (Applies .pcMask b.toNat rel.toNat)]
        · rfl
        · intro r; rfl
  | pcMaskV1 =>
    simp only [FuncDescEntry.scan_eq]
    rw [scanRows_views _ (Applies .pcMaskV1 ((e.repBlockSize.map BitVec.toNat).getD 0) rel.toNat)]
    · rfl
    · intro r
      unfold Applies
      rw [Bool.eq_iff_iff, decide_eq_true_iff, mask_iff, List.all_eq_true]
      simp only [List.mem_range, Bool.or_eq_true, Bool.not_eq_true', FrameRowEntry.view]
      refine forall_congr' fun i => forall_congr' fun _ => ?_
      cases (r.startAddressOffset.toNat).testBit i <;> simp

/-- **C64.**  The lookup at an address of a function, for every function type and whatever its rows
are: it returns the first row that applies, unless a row that cannot be decoded comes first, which is
reported, or one that starts outside the function, on which it panics; for a PcMask function of
repetition size 0 it returns `InvalidFdeRepBlockSize`. -/
theorem C64_lookup (dbg : Bool) (e : FuncDescEntry o) (a : I32) (hc : Covers e a)
    (hd : NoOverflow dbg e a) :
    seen (e.getFreForAddress dbg a) =
      if e.fdetype = .pcMask ∧ e.repBlockSize = some 0 then .ok (.error .invalidFdeRepBlockSize)
      else firstApplying e.size.toNat
        (Applies e.fdetype ((e.repBlockSize.map BitVec.toNat).getD 0) (a.toInt - e.startAddress.toInt).toNat)
        (decodeFres o e.fde.info.toNat e.fde.numFres.toNat e.fres) :=
  lookup_views dbg e a hc.1 (Int.le_of_lt hc.2) hd

/-- The PcMask function of the version 1 sample section: the row with start 7 applies at offsets whose
low three bits are set. -/
example :
    let e : FuncDescEntry .big := ⟨.v1 ⟨0x10, 0x40, 0, 1, 0x18⟩, [7, 2, 16]⟩
    Covers e 0x1F ∧ e.fdetype = .pcMaskV1 ∧
    seen (e.getFreForAddress true 0x1F) = .ok (.ok (some ⟨7, .fp, false, [16]⟩)) ∧
    seen (e.getFreForAddress true 0x18) = .ok (.ok none) := by
  decide +kernel

/-- An undecodable row is reported only if no row before it applies. -/
example : let e : FuncDescEntry .little := { Samples.e0 with fres := [2, 3, 8, 4, 0x65] }
    seen (e.getFreForAddress true 0x1001) = .ok (.error (.unsupportedFreOffset .reserved3)) ∧
    seen (e.getFreForAddress true 0x1006) = .ok (.ok (some ⟨2, .sp, false, [8]⟩)) := by
  decide +kernel

/-- Rows of which none starts outside the function: the first row is what a lookup at the end finds. -/
theorem firstApplying_end {size : Nat} {m : FreView → Bool} (hm : ∀ v : FreView, v.start < size → m v = true)
    (vs : List (Except ReadError FreView)) :
    firstApplying size m vs =
      match vs with
      | [] => .ok (.ok none)
      | .error e :: _ => .ok (.error e)
      | .ok v :: _ => if v.start < size then .ok (.ok (some v)) else .panic .assertion := by
  match vs with
  | [] => rfl
  | .error e :: _ => rfl
  | .ok v :: vs =>
    unfold firstApplying
    by_cases hv : v.start < size
    · rw [if_neg (fun h => h hv), if_pos (hm v hv)]
      exact (if_pos hv).symm
    · rw [if_pos hv]
      exact (if_neg hv).symm

/-- **C18, the address just after a PcInc function**: the lookup answers with the function's first row, whatever the
others are; `None` comes only from a function without rows.  Missing: that it is `None`, which is false. -/
theorem C18_at_end_partial {dbg : Bool} {e : FuncDescEntry o} {a : I32}
    (ha : a.toInt = e.startAddress.toInt + e.size.toNat) (hd : NoOverflow dbg e a) (ht : e.fdetype = .pcInc) :
    seen (e.getFreForAddress dbg a) =
      match decodeFres o e.fde.info.toNat e.fde.numFres.toNat e.fres with
      | [] => .ok (.ok none)
      | .error x :: _ => .ok (.error x)
      | .ok v :: _ => if v.start < e.size.toNat then .ok (.ok (some v)) else .panic .assertion := by
  rw [lookup_views dbg e a (by omega) (by omega) hd, if_neg (by rw [ht]; rintro ⟨h, _⟩; cases h), ht]
  refine firstApplying_end (fun v hv => ?_) _
  unfold Applies
  exact decide_eq_true (by omega)

/-- The address just after the first function of the sample: it gets the row of the function's start. -/
example : (0x1020 : I32).toInt = Samples.e0.startAddress.toInt + Samples.e0.size.toNat ∧ NoOverflow true Samples.e0 0x1020 ∧
    Samples.e0.fdetype = .pcInc ∧
    seen (Samples.e0.getFreForAddress true 0x1020) = .ok (.ok (some Samples.r00.view)) := by
  refine ⟨by decide +kernel, fun _ => by decide +kernel, by decide +kernel, by decide +kernel⟩

end Verif
