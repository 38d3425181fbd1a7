import Verif.Proofs.Load
import Verif.Spec.Entry
/-!
# Iteration over the function table
-/

namespace Verif
open Spec

variable {o : Endian}

/-- What `next` makes of a table element. -/
def entryOf (o : Endian) (fres : List U8) (fde : Fde) : FuncDescEntry o :=
  { fde := fde, fres := fres.drop fde.startFreOff.toNat }

theorem getFrom_getD_drop (l : List U8) (n : Nat) : (getFrom l n).getD [] = l.drop n := by
  unfold getFrom
  split
  · rfl
  · rw [List.drop_eq_nil_of_le (by omega)]; rfl

theorem FuncDescIter.next_cons (fde : Fde) (rest : List Fde) (fres : List U8) :
    (FuncDescIter.mk (o := o) (fde :: rest) fres).next
      = (some (entryOf o fres fde), ⟨rest, fres⟩) := by
  simp [FuncDescIter.next, entryOf, getFrom_getD_drop]

theorem FuncDescIter.next_nil (fres : List U8) :
    (FuncDescIter.mk (o := o) [] fres).next = (none, ⟨[], fres⟩) := rfl

/-- The iterator after `k` calls of `next`. -/
def FuncDescIter.after (it : FuncDescIter o) : Nat → FuncDescIter o
  | 0 => it
  | k + 1 => (it.after k).next.2

theorem FuncDescIter.after_eq (it : FuncDescIter o) (k : Nat) :
    it.after k = ⟨it.fdes.drop k, it.fres⟩ := by
  induction k with
  | zero => rfl
  | succ k ih =>
    rw [FuncDescIter.after, ih]
    rcases h : it.fdes.drop k with _ | ⟨fde, rest⟩
    · rw [next_nil]
      rw [List.drop_eq_nil_of_le]
      have := List.drop_eq_nil_iff.1 h; omega
    · rw [next_cons]
      have : it.fdes.drop (k + 1) = rest := by
        rw [← List.drop_drop, h]; rfl
      rw [this]

theorem FuncDescIter.next_fst (it : FuncDescIter o) :
    it.next.1 = it.fdes.head?.map (entryOf o it.fres) := by
  obtain ⟨fdes, fres⟩ := it
  cases fdes with
  | nil => rfl
  | cons a l => rw [next_cons]; rfl

theorem FuncDescIter.collectFuel_eq (l : List Fde) (fres : List U8) (fuel : Nat) (h : l.length ≤ fuel) :
    FuncDescIter.collectFuel fuel (FuncDescIter.mk (o := o) l fres) = .ok (l.map (entryOf o fres)) := by
  induction l generalizing fuel with
  | nil => unfold FuncDescIter.collectFuel; simp [next_nil]
  | cons a l ih =>
    unfold FuncDescIter.collectFuel
    simp only [next_cons]
    cases fuel with
    | zero => simp at h
    | succ fuel => simp [ih fuel (by simpa using h)]

theorem FuncDescIter.collect_eq (it : FuncDescIter o) :
    it.collect = .ok (it.fdes.map (entryOf o it.fres)) :=
  FuncDescIter.collectFuel_eq _ _ _ (Nat.le_refl _)

theorem FuncDescIter.findFuel_eq (p : FuncDescEntry o → Rust Bool) (q : FuncDescEntry o → Bool)
    (l : List Fde) (fres : List U8) (hp : ∀ fde ∈ l, p (entryOf o fres fde) = .ok (q (entryOf o fres fde)))
    (fuel : Nat) (h : l.length ≤ fuel) :
    FuncDescIter.findFuel p fuel (FuncDescIter.mk (o := o) l fres)
      = .ok ((l.map (entryOf o fres)).find? q) := by
  induction l generalizing fuel with
  | nil => unfold FuncDescIter.findFuel; simp [next_nil]
  | cons a l ih =>
    unfold FuncDescIter.findFuel
    simp only [next_cons, hp a (by simp), Rust.bind_ok]
    cases fuel with
    | zero => simp at h
    | succ fuel =>
      rw [List.map_cons, List.find?_cons]
      cases q (entryOf o fres a) <;>
        simp [ih (fun x hx => hp x (by simp [hx])) fuel (by simpa using h)]

theorem FuncDescIter.findFuel_found (p : FuncDescEntry o → Rust Bool)
    (l : List Fde) (fres : List U8) (fuel : Nat) (e : FuncDescEntry o)
    (h : FuncDescIter.findFuel p fuel (FuncDescIter.mk (o := o) l fres) = .ok (some e)) :
    e ∈ l.map (entryOf o fres) ∧ p e = .ok true := by
  induction l generalizing fuel with
  | nil => unfold FuncDescIter.findFuel at h; simp [next_nil] at h
  | cons a l ih =>
    unfold FuncDescIter.findFuel at h
    simp only [next_cons] at h
    rw [Rust.bind_eq_ok] at h
    obtain ⟨found, hf, h⟩ := h
    cases found with
    | true =>
      simp only [if_true, Rust.ok.injEq, Option.some.injEq] at h
      subst h
      exact ⟨by simp, hf⟩
    | false =>
      cases fuel with
      | zero => simp at h
      | succ fuel =>
        simp only [Bool.false_eq_true, if_false] at h
        have := ih fuel h
        exact ⟨List.mem_cons_of_mem _ this.1, this.2⟩

theorem sectionOf_fdes_length (o : Endian) (s : List U8) :
    (sectionOf o s).fdes.toList.length = Spec.numFdes o s := by
  simp only [sectionOf, tableOf]
  split <;> simp [FdeList.toList]

/-- Element `i` of the decoded table. -/
theorem tableOf_getElem? (o : Endian) (s : List U8) (i : Nat) :
    (tableOf o s).toList[i]? =
      if i < Spec.numFdes o s then
        some (if version o s = 1 then .v1 (FdeV1.decode o (s.drop (fdePos o s i)))
          else .v2 (FdeV2.decode o (s.drop (fdePos o s i))))
      else none := by
  unfold tableOf
  by_cases hi : i < Spec.numFdes o s
  · split <;> simp [FdeList.toList, hi]
  · split <;> simp [FdeList.toList, hi] <;> omega

theorem fdePos_le {o : Endian} {s : List U8} (h : Loads o s) {i : Nat} (hi : i < Spec.numFdes o s) :
    fdePos o s i + fdeSize o s ≤ s.length := by
  have h1 := h.table
  have h2 : (i + 1) * fdeSize o s ≤ Spec.numFdes o s * fdeSize o s := Nat.mul_le_mul_right _ hi
  simp only [fdePos]
  rw [Nat.add_mul] at h2
  omega

theorem fdetype_toNat (b : U8) :
    FdeInfo.fdetype b = if b.toNat / 2 ^ 3 % 2 = 1 then .pcMask else .pcInc := by
  revert b; decide

theorem pauthKey_toNat (b : U8) :
    FdeInfo.pauthKey b = if b.toNat / 2 ^ 4 % 2 = 1 then .B else .A := by
  revert b; decide

theorem entryAt_of_loads {o : Endian} {s : List U8} (h : Loads o s) {i : Nat}
    (hi : i < Spec.numFdes o s) {fde : Fde} (hf : (tableOf o s).toList[i]? = some fde) :
    EntryAt o s i (entryOf o (span s (fresPos o s) (Spec.freLen o s)) fde) := by
  rw [tableOf_getElem?, if_pos hi] at hf
  have hp := fdePos_le h hi
  by_cases hv : version o s = 1
  · simp only [hv, if_true, Option.some.injEq] at hf
    have hsz : fdeSize o s = 17 := by simp [fdeSize, hv]
    rw [hsz] at hp
    have hinfo : (byteAt s (fdePos o s i + 16)).toNat = uintAt o s (fdePos o s i + 16) 1 :=
      byteAt_toNat o (by omega)
    subst hf
    refine ⟨?_, ?_, ?_, ?_, ?_, ?_, ?_, ?_⟩
    · show (readU32 o (s.drop (fdePos o s i)) 0).toInt = _
      rw [readU32_drop, readU32_toInt o (by omega)]; rfl
    · show (readU32 o (s.drop (fdePos o s i)) 4).toNat = _
      rw [readU32_drop, readU32_toNat o (by omega)]
    · show (readU32 o (s.drop (fdePos o s i)) 12).toNat = _
      rw [readU32_drop, readU32_toNat o (by omega)]
    · show (byteAt (s.drop (fdePos o s i)) 16).toNat = _
      rw [byteAt_drop, hinfo]
    · show (match FdeInfo.fdetype (byteAt (s.drop (fdePos o s i)) 16) with
        | .pcInc => FdeType.pcInc | .pcMask => FdeType.pcMaskV1) = _
      rw [byteAt_drop, fdetype_toNat, hinfo, fdeKind, infoBit]
      by_cases hb : uintAt o s (fdePos o s i + 16) 1 / 2 ^ 3 % 2 = 1 <;> simp [hb, hv]
    · show FdeInfo.pauthKey (byteAt (s.drop (fdePos o s i)) 16) = _
      rw [byteAt_drop, pauthKey_toNat, hinfo, infoBit]; simp
    · simp [FuncDescEntry.repBlockSize, entryOf, Fde.repSize, hv]
    · show List.drop (readU32 o (s.drop (fdePos o s i)) 8).toNat _ = _
      rw [readU32_drop, readU32_toNat o (by omega)]
  · simp only [hv, if_false, Option.some.injEq] at hf
    have hsz : fdeSize o s = 20 := by simp [fdeSize, hv]
    rw [hsz] at hp
    have hinfo : (byteAt s (fdePos o s i + 16)).toNat = uintAt o s (fdePos o s i + 16) 1 :=
      byteAt_toNat o (by omega)
    subst hf
    refine ⟨?_, ?_, ?_, ?_, ?_, ?_, ?_, ?_⟩
    · show (readU32 o (s.drop (fdePos o s i)) 0).toInt = _
      rw [readU32_drop, readU32_toInt o (by omega)]; rfl
    · show (readU32 o (s.drop (fdePos o s i)) 4).toNat = _
      rw [readU32_drop, readU32_toNat o (by omega)]
    · show (readU32 o (s.drop (fdePos o s i)) 12).toNat = _
      rw [readU32_drop, readU32_toNat o (by omega)]
    · show (byteAt (s.drop (fdePos o s i)) 16).toNat = _
      rw [byteAt_drop, hinfo]
    · show (match FdeInfo.fdetype (byteAt (s.drop (fdePos o s i)) 16) with
        | .pcInc => FdeType.pcInc | .pcMask => FdeType.pcMask) = _
      rw [byteAt_drop, fdetype_toNat, hinfo, fdeKind, infoBit]
      by_cases hb : uintAt o s (fdePos o s i + 16) 1 / 2 ^ 3 % 2 = 1 <;> simp [hb, hv]
    · show FdeInfo.pauthKey (byteAt (s.drop (fdePos o s i)) 16) = _
      rw [byteAt_drop, pauthKey_toNat, hinfo, infoBit]; simp
    · show Option.map BitVec.toNat (some (byteAt (s.drop (fdePos o s i)) 17)) = _
      rw [byteAt_drop, Option.map_some, byteAt_toNat o (by omega), if_neg hv]
    · show List.drop (readU32 o (s.drop (fdePos o s i)) 8).toNat _ = _
      rw [readU32_drop, readU32_toNat o (by omega)]

end Verif
