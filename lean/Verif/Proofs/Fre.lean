import Verif.Proofs.Bytes
import Verif.Spec.Fre
/-!
# Reading frame row entries
-/

namespace Verif
open Spec

variable {o : Endian}

/-- What a row read from a section says. -/
def FrameRowEntry.view (r : FrameRowEntry o) : FreView where
  start := r.startAddressOffset.toNat
  base := r.baseReg
  mangled := r.mangled
  offsets := r.storedOffsets.map BitVec.toInt

/-! ### Info bytes as numbers -/

theorem fretype_eq (b : U8) : FdeInfo.fretype b = match b.toNat % 8 with
    | 0 => .addr1 | 1 => .addr2 | 2 => .addr4 | 3 => .reserved3 | 4 => .reserved4
    | 5 => .reserved5 | 6 => .reserved6 | _ => .reserved7 := by
  revert b; decide +kernel

theorem offsetCount_toNat (b : U8) : (FreInfo.offsetCount b).toNat = b.toNat / 2 % 16 := by
  revert b; decide +kernel

theorem offsetSize_eq (b : U8) : FreInfo.offsetSize b = match b.toNat / 32 % 4 with
    | 0 => .b1 | 1 => .b2 | 2 => .b4 | _ => .reserved3 := by
  revert b; decide +kernel

theorem baseReg_eq (b : U8) : FreInfo.baseReg b = if b.toNat % 2 = 1 then .sp else .fp := by
  revert b; decide +kernel

theorem mangled_eq (b : U8) : FreInfo.mangled b = decide (b.toNat / 128 % 2 = 1) := by
  revert b; decide +kernel

/-! ### Offsets -/

theorem pad3_take (l : List I32) (n : Nat) (h : l.length = n) (hn : n ≤ 3) :
    (FrameRowEntry.pad3 l).take n = l := by
  subst h
  match l, hn with
  | [], _ => rfl
  | [a], _ => rfl
  | [a, b], _ => rfl
  | [a, b, c], _ => rfl

theorem pad3_length (l : List I32) : (FrameRowEntry.pad3 l).length = 3 := by
  simp [FrameRowEntry.pad3]

/-- `loadOffsets`, with widths as numbers. -/
theorem loadOffsets_eq (o : Endian) (fres : List U8) (p count : Nat) (b : U8)
    (hp : p ≤ fres.length) :
    match offsetWidth b.toNat with
    | none => FrameRowEntry.loadOffsets o (fres.drop p) count (FreInfo.offsetSize b)
        = .error (.unsupportedFreOffset .reserved3)
    | some z =>
      if fres.length < p + z * count then
        FrameRowEntry.loadOffsets o (fres.drop p) count (FreInfo.offsetSize b) = .error .unexpectedEof
      else ∃ l, FrameRowEntry.loadOffsets o (fres.drop p) count (FreInfo.offsetSize b)
          = .ok (FrameRowEntry.pad3 l, fres.drop (p + z * count)) ∧
        l.length = count ∧
        l.map BitVec.toInt = (List.range count).map fun i => sintAt o fres (p + z * i) z := by
  rw [offsetSize_eq]
  unfold offsetWidth
  have hlt : b.toNat / 32 % 4 < 4 := Nat.mod_lt _ (by omega)
  generalize b.toNat / 32 % 4 = k at hlt
  match k, hlt with
  | 3, _ => rfl
  | 0, _ =>
    simp only [FrameRowEntry.loadOffsets, sliceFromPrefix, List.length_drop]
    by_cases h : fres.length < p + 1 * count
    · rw [if_pos h, if_pos (by omega)]
    · rw [if_neg h, if_neg (by omega)]
      refine ⟨_, by rw [List.drop_drop], by simp, ?_⟩
      simp only [List.map_map]
      apply List.map_congr_left
      intro i hi
      have hi := List.mem_range.1 hi
      simp only [Function.comp, List.drop_drop, byteAt_drop]
      rw [BitVec.toInt_signExtend_of_le (by omega), byteAt_toInt o (by omega)]
      rfl
  | 1, _ =>
    simp only [FrameRowEntry.loadOffsets, sliceFromPrefix, List.length_drop]
    by_cases h : fres.length < p + 2 * count
    · rw [if_pos h, if_pos (by omega)]
    · rw [if_neg h, if_neg (by omega)]
      refine ⟨_, by rw [List.drop_drop], by simp, ?_⟩
      simp only [List.map_map]
      apply List.map_congr_left
      intro i hi
      have hi := List.mem_range.1 hi
      simp only [Function.comp, List.drop_drop, readU16_drop]
      rw [BitVec.toInt_signExtend_of_le (by omega), readU16_toInt o (by omega)]
      rfl
  | 2, _ =>
    simp only [FrameRowEntry.loadOffsets, sliceFromPrefix, List.length_drop]
    by_cases h : fres.length < p + 4 * count
    · rw [if_pos h, if_pos (by omega)]
    · rw [if_neg h, if_neg (by omega)]
      refine ⟨_, by rw [List.drop_drop], by simp, ?_⟩
      simp only [List.map_map]
      apply List.map_congr_left
      intro i hi
      have hi := List.mem_range.1 hi
      simp only [Function.comp, List.drop_drop, readU32_drop]
      rw [readU32_toInt o (by omega)]
      rfl

/-- `loadHead`, with widths as numbers. -/
theorem loadHead_eq (o : Endian) (fres : List U8) (fi : U8) (w : Nat)
    (hw : addrWidth fi.toNat = some w) :
    (fres.length < w + 1 → FrameRowEntry.loadHead o fres (FdeInfo.fretype fi) = none) ∧
    (w + 1 ≤ fres.length → ∃ a b, FrameRowEntry.loadHead o fres (FdeInfo.fretype fi)
        = some (a, b, fres.drop (w + 1)) ∧ a.toNat = uintAt o fres 0 w ∧ b.toNat = uintAt o fres w 1) := by
  rw [fretype_eq]
  unfold addrWidth at hw
  have hlt : fi.toNat % 8 < 8 := Nat.mod_lt _ (by omega)
  generalize fi.toNat % 8 = k at hlt hw
  match k, hlt with
  | 0, _ =>
    simp only [Option.some.injEq] at hw; subst hw
    simp only [FrameRowEntry.loadHead]
    refine ⟨fun h => if_pos h, fun h => ⟨(byteAt fres 0).setWidth 32, byteAt fres 1, ?_, ?_, ?_⟩⟩
    · rw [if_neg (by omega), getFrom, if_pos (by omega)]; rfl
    · rw [BitVec.toNat_setWidth, byteAt_toNat o (by omega), Nat.mod_eq_of_lt]
      rw [← byteAt_toNat o (by omega)]; have := (byteAt fres 0).isLt; omega
    · exact byteAt_toNat o (by omega)
  | 1, _ =>
    simp only [Option.some.injEq] at hw; subst hw
    simp only [FrameRowEntry.loadHead]
    refine ⟨fun h => if_pos h, fun h => ⟨(readU16 o fres 0).setWidth 32, byteAt fres 2, ?_, ?_, ?_⟩⟩
    · rw [if_neg (by omega), getFrom, if_pos (by omega)]; rfl
    · rw [BitVec.toNat_setWidth, readU16_toNat o (by omega), Nat.mod_eq_of_lt]
      rw [← readU16_toNat o (by omega)]; have := (readU16 o fres 0).isLt; omega
    · exact byteAt_toNat o (by omega)
  | 2, _ =>
    simp only [Option.some.injEq] at hw; subst hw
    simp only [FrameRowEntry.loadHead]
    refine ⟨fun h => if_pos h, fun h => ⟨readU32 o fres 0, byteAt fres 4, ?_, ?_, ?_⟩⟩
    · rw [if_neg (by omega), getFrom, if_pos (by omega)]; rfl
    · exact readU32_toNat o (by omega)
    · exact byteAt_toNat o (by omega)
  | 3, _ | 4, _ | 5, _ | 6, _ | 7, _ => simp at hw

/-- `FrameRowEntry::load` against the format specification. -/
theorem freLoad_spec (o : Endian) (fde : Fde) (fres : List U8) :
    match decodeFre o fde.info.toNat fres with
    | .error e => FrameRowEntry.load o fde fres = .ok (.error e)
    | .ok (v, rest) =>
      if v.start < fde.size.toNat then
        ∃ r : FrameRowEntry o, FrameRowEntry.load o fde fres = .ok (.ok (r, rest)) ∧
          r.view = v ∧ r.fde = fde ∧ r.storedOffsets.length ≤ 3
      else FrameRowEntry.load o fde fres = .panic .assertion := by
  unfold decodeFre
  cases hw : addrWidth fde.info.toNat with
  | none =>
    simp only
    unfold FrameRowEntry.load
    rw [fretype_eq]
    unfold addrWidth at hw
    have hlt : fde.info.toNat % 8 < 8 := Nat.mod_lt _ (by omega)
    generalize fde.info.toNat % 8 = k at hlt hw
    match k, hlt with
    | 0, _ | 1, _ | 2, _ => simp at hw
    | 3, _ | 4, _ | 5, _ | 6, _ | 7, _ => rfl
  | some w =>
    have hload : FrameRowEntry.load o fde fres =
        match FrameRowEntry.loadHead o fres (FdeInfo.fretype fde.info) with
        | none => .ok (.error .unexpectedEof)
        | some (startAddress, info, offsets) =>
          if ¬ (FreInfo.offsetCount info).toNat ≤ 3 then
            .ok (.error (.invalidFreOffsetCount (FreInfo.offsetCount info)))
          else
            match FrameRowEntry.loadOffsets o offsets (FreInfo.offsetCount info).toNat
                (FreInfo.offsetSize info) with
            | .error e => .ok (.error e)
            | .ok (offsets, remaining) =>
              if startAddress.toNat < fde.size.toNat then
                .ok (.ok ({ fde := fde, startAddressOffset := startAddress, info := info,
                            offsets := offsets }, remaining))
              else .panic .assertion := by
      unfold FrameRowEntry.load
      have h := fretype_eq fde.info
      unfold addrWidth at hw
      have hlt : fde.info.toNat % 8 < 8 := Nat.mod_lt _ (by omega)
      generalize fde.info.toNat % 8 = k at hlt hw h
      match k, hlt with
      | 0, _ | 1, _ | 2, _ => simp only at h; rw [h] <;> rfl
      | 3, _ | 4, _ | 5, _ | 6, _ | 7, _ => simp at hw
    obtain ⟨h1, h2⟩ := loadHead_eq o fres fde.info w hw
    simp only
    rw [hload]
    by_cases hlen : fres.length < w + 1
    · simp only [if_pos hlen, h1 hlen]
    · obtain ⟨a, b, hab, ha, hb⟩ := h2 (by omega)
      rw [if_neg hlen, hab, ← ha, ← hb]
      simp only [offsetCount_toNat]
      by_cases hc : 3 < b.toNat / 2 % 16
      · rw [if_pos hc, if_pos (show ¬ b.toNat / 2 % 16 ≤ 3 by omega)]
        congr
        apply BitVec.eq_of_toNat_eq
        rw [offsetCount_toNat, BitVec.toNat_ofNat]
        have := b.isLt
        omega
      · rw [if_neg hc, if_neg (show ¬ ¬ b.toNat / 2 % 16 ≤ 3 by omega)]
        have hoff := loadOffsets_eq o fres (w + 1) (b.toNat / 2 % 16) b (by omega)
        cases hz : offsetWidth b.toNat with
        | none =>
          simp only [hz] at hoff ⊢
          rw [hoff]
        | some z =>
          simp only [hz] at hoff ⊢
          by_cases hl : fres.length < w + 1 + z * (b.toNat / 2 % 16)
          · rw [if_pos hl] at hoff ⊢
            rw [hoff]
          · rw [if_neg hl] at hoff ⊢
            obtain ⟨l, h3, h4, h5⟩ := hoff
            rw [h3]
            simp only
            by_cases hs : a.toNat < fde.size.toNat
            · rw [if_pos hs, if_pos hs]
              have hst : (FrameRowEntry.mk (o := o) fde a b (FrameRowEntry.pad3 l)).storedOffsets = l := by
                simp only [FrameRowEntry.storedOffsets, getTo, pad3_length, offsetCount_toNat]
                rw [if_pos (by omega)]
                exact pad3_take l _ h4 (by omega)
              refine ⟨_, rfl, ?_, rfl, by rw [hst]; omega⟩
              simp only [FrameRowEntry.view, hst, h5, FrameRowEntry.baseReg, baseReg_eq,
                FrameRowEntry.mangled, mangled_eq]
            · rw [if_neg hs, if_neg hs]

/-! ### Iteration -/

/-- Reading `n` rows, as a recursion on `n`. -/
def readRows (o : Endian) (fde : Fde) : Nat → List U8 → Rust (List (Except ReadError (FrameRowEntry o)))
  | 0, _ => .ok []
  | n + 1, fres =>
    (FrameRowEntry.load o fde fres).bind fun
    | .ok (r, rest) => (readRows o fde n rest).bind fun rs => .ok (.ok r :: rs)
    | .error e => .ok [.error e]

theorem FrameRowIter.next_done {it : FrameRowIter o} (h : it.fde.numFres.toNat ≤ it.index.toNat) :
    it.next = .ok (none, it) := by simp [FrameRowIter.next, h]

theorem index_succ {i n : U32} (h : i.toNat < n.toNat) : (i + 1).toNat = i.toNat + 1 := by
  have := n.isLt
  rw [BitVec.toNat_add]
  simp; omega

theorem numFres_le_max (x : U32) : x.toNat ≤ u32Max.toNat := by
  have := x.isLt; simp [u32Max]; omega

theorem FrameRowIter.collectFuel_eq (fuel : Nat) (it : FrameRowIter o)
    (h : it.fde.numFres.toNat - it.index.toNat ≤ fuel) :
    FrameRowIter.collectFuel fuel it
      = readRows o it.fde (it.fde.numFres.toNat - it.index.toNat) it.fres := by
  induction fuel generalizing it with
  | zero =>
    unfold FrameRowIter.collectFuel
    rw [FrameRowIter.next_done (by omega), show it.fde.numFres.toNat - it.index.toNat = 0 by omega]
    rfl
  | succ fuel ih =>
    unfold FrameRowIter.collectFuel
    by_cases hd : it.fde.numFres.toNat ≤ it.index.toNat
    · rw [FrameRowIter.next_done hd, show it.fde.numFres.toNat - it.index.toNat = 0 by omega]
      rfl
    · obtain ⟨n, hn⟩ : ∃ n, it.fde.numFres.toNat - it.index.toNat = n + 1 :=
        ⟨it.fde.numFres.toNat - it.index.toNat - 1, by omega⟩
      rw [hn]
      simp only [FrameRowIter.next, hd, if_false, readRows]
      cases hl : FrameRowEntry.load o it.fde it.fres with
      | panic p => rfl
      | diverge => rfl
      | ok r =>
        cases r with
        | ok r =>
          obtain ⟨r, rest⟩ := r
          simp only [Rust.bind_ok]
          have hi := index_succ (i := it.index) (n := it.fde.numFres) (by omega)
          rw [ih _ (by simp only [hi]; omega)]
          simp only [hi]
          rw [show it.fde.numFres.toNat - (it.index.toNat + 1) = n by omega]
        | error e =>
          simp only [Rust.bind_ok]
          rw [ih _ (by have := numFres_le_max it.fde.numFres; simp only; omega)]
          simp only
          rw [show it.fde.numFres.toNat - u32Max.toNat = 0 by have := numFres_le_max it.fde.numFres; omega]
          rfl

theorem FrameRowIter.collect_eq (it : FrameRowIter o) :
    it.collect = readRows o it.fde (it.fde.numFres.toNat - it.index.toNat) it.fres :=
  FrameRowIter.collectFuel_eq _ _ (by omega)

theorem FuncDescEntry.collect_eq (e : FuncDescEntry o) :
    e.iter.collect = readRows o e.fde e.fde.numFres.toNat e.fres := by
  rw [FrameRowIter.collect_eq]; rfl

/-- `readRows` never hangs. -/
theorem readRows_ne_diverge (fde : Fde) (n : Nat) (fres : List U8) :
    readRows o fde n fres ≠ .diverge := by
  induction n generalizing fres with
  | zero => simp [readRows]
  | succ n ih =>
    have h := freLoad_spec o fde fres
    unfold readRows
    split at h
    · rw [h]; simp
    · split at h
      · obtain ⟨r, hr, _⟩ := h
        rw [hr]
        simp only [Rust.bind_ok]
        rename_i rest _ _ _
        intro hh
        cases h' : readRows o fde n rest with
        | diverge => exact ih _ h'
        | ok a => rw [h'] at hh; simp at hh
        | panic p => rw [h'] at hh; simp at hh
      · rw [h]; simp

theorem readRows_length {fde : Fde} {n : Nat} {fres : List U8}
    {rs : List (Except ReadError (FrameRowEntry o))} (h : readRows o fde n fres = .ok rs) :
    rs.length ≤ n ∧ (n ≠ 0 → rs ≠ []) ∧
    ∀ (i : Nat) e, rs[i]? = some (.error e) → i + 1 = rs.length := by
  induction n generalizing fres rs with
  | zero => simp [readRows] at h; subst h; simp
  | succ n ih =>
    unfold readRows at h
    rw [Rust.bind_eq_ok] at h
    obtain ⟨x, hx, h⟩ := h
    cases x with
    | error e =>
      simp only [Rust.ok.injEq] at h
      subst h
      refine ⟨by simp, by simp, fun i e' hi => ?_⟩
      have := (List.getElem?_eq_some_iff.1 hi).1
      simp at this ⊢; omega
    | ok r =>
      simp only [Rust.bind_eq_ok] at h
      obtain ⟨rs', h', h⟩ := h
      simp only [Rust.ok.injEq] at h
      subst h
      obtain ⟨h1, _, h3⟩ := ih h'
      refine ⟨by simp; omega, by simp, fun i e' hi => ?_⟩
      cases i with
      | zero => simp at hi
      | succ i =>
        simp only [List.getElem?_cons_succ] at hi
        simp [h3 i e' hi]

end Verif
