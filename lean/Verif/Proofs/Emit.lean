import Verif.Proofs.WriteInv
import Verif.Proofs.Fre
/-!
# `build` in closed form, and what the reader makes of the bytes
-/

namespace Verif
open Spec SFrameBuilder

/-! ### Pure versions of the emission functions -/

/-- `addrType`, without the unreachable arm. -/
def addrTy (f : FuncDescBuilder) : FreAddrSize :=
  let maxOffset := match f.fres.last with
    | some (_, fre) => fre.startAddress.toNat
    | none => 0
  if maxOffset ≤ 0x7F then .u8 else if maxOffset ≤ 0x7FFF then .u16 else .u32

/-- Number of bytes of a width. -/
def FreAddrSize.bytes : FreAddrSize → Nat
  | .u8 => 1
  | .u16 => 2
  | .u32 => 4

theorem addrType_eq {f : FuncDescBuilder} (h : FdeInv f) : addrType f = .ok (addrTy f) := by
  unfold addrType addrTy
  cases hl : f.fres.last with
  | none => rfl
  | some x =>
    obtain ⟨k, fre⟩ := x
    have := h.small (k, fre) (List.mem_of_getLast? hl)
    simp only at this ⊢
    split
    · rfl
    split
    · rfl
    rw [if_pos (by omega)]

/-- The chosen width holds every row start. -/
theorem addrTy_fits {f : FuncDescBuilder} (h : FdeInv f) {e : U32 × FrameRowBuilder}
    (he : e ∈ f.fres) : e.2.startAddress.toNat < 256 ^ (addrTy f).bytes := by
  have hlast : ∃ k fre, f.fres.last = some (k, fre) ∧
      e.2.startAddress.toNat ≤ fre.startAddress.toNat := by
    have hne : f.fres ≠ [] := by intro hh; rw [hh] at he; cases he
    obtain ⟨l, x, hx⟩ := (List.eq_nil_or_concat f.fres).resolve_left hne
    refine ⟨x.1, x.2, by simp [BMap.last, hx], ?_⟩
    have hs := h.sorted
    rw [hx] at he hs
    simp only [BMap.Sorted, List.concat_eq_append, List.pairwise_append] at hs
    simp only [List.concat_eq_append, List.mem_append, List.mem_singleton] at he
    rcases he with he | rfl
    · have := hs.2.2 e he x (by simp)
      have k1 := h.key e (by simp [hx, he])
      have k2 := h.key x (by simp [hx])
      simp only [ordU32, k1, k2] at this
      omega
    · omega
  obtain ⟨k, fre, hl, hle⟩ := hlast
  have hb := fre.startAddress.isLt
  unfold addrTy
  rw [hl]
  simp only
  split
  · simp only [FreAddrSize.bytes]; omega
  split
  · simp only [FreAddrSize.bytes]; omega
  · simp only [FreAddrSize.bytes]; omega

/-- The FRE info byte. -/
def infoByte (r : FrameRowBuilder) : U8 :=
  let info := FreInfo.setOffsetSize 0#8 (freOffsetOf (rowOffsetType r))
  let count := BitVec.ofNat 8 (rowValues r).length
  let info := (info &&& 0b11100001#8) ||| ((count <<< 1) &&& 0b00011110#8)
  FreInfo.setMangled (FreInfo.setBaseReg info r.baseReg) r.mangled

theorem rowValues_length_le (r : FrameRowBuilder) : (rowValues r).length ≤ 3 := by
  unfold rowValues
  split
  · simp
  · rename_i x _
    cases x.ra <;> cases x.fp <;> simp

theorem rowInfo_eq (r : FrameRowBuilder) : rowInfo r = .ok (infoByte r) := by
  unfold rowInfo infoByte FreInfo.setOffsetCount
  have := rowValues_length_le r
  simp only
  rw [if_pos (by simp; omega)]
  rfl

/-- The number that an info byte is, part by part. -/
theorem infoByte_parts (r : FrameRowBuilder) :
    (infoByte r).toNat / 2 % 16 = (rowValues r).length ∧
    offsetWidth (infoByte r).toNat = some (rowOffsetType r).bytes ∧
    (if (infoByte r).toNat % 2 = 1 then BaseReg.sp else .fp) = r.baseReg ∧
    decide ((infoByte r).toNat / 128 % 2 = 1) = r.mangled := by
  have hl := rowValues_length_le r
  unfold infoByte
  have H : ∀ (n : Fin 4) (t : FreAddrSize) (b : BaseReg) (m : Bool),
      let info := FreInfo.setOffsetSize 0#8 (freOffsetOf t)
      let count := BitVec.ofNat 8 n.val
      let info := (info &&& 0b11100001#8) ||| ((count <<< 1) &&& 0b00011110#8)
      let info := FreInfo.setMangled (FreInfo.setBaseReg info b) m
      info.toNat / 2 % 16 = n.val ∧ offsetWidth info.toNat = some t.bytes ∧
      (if info.toNat % 2 = 1 then BaseReg.sp else .fp) = b ∧ decide (info.toNat / 128 % 2 = 1) = m := by
    intro n t b m
    cases t <;> cases b <;> cases m <;> revert n <;> decide +kernel
  have := H ⟨(rowValues r).length, by omega⟩ (rowOffsetType r) r.baseReg r.mangled
  exact this

/-- The bytes of one row. -/
def encRow (o : Endian) (ty : FreAddrSize) (r : FrameRowBuilder) : List U8 :=
  startBytes o ty r.startAddress ++ [infoByte r]
    ++ (rowValues r).flatMap (offsetBytes o (rowOffsetType r))

theorem rowBytes_eq (o : Endian) (ty : FreAddrSize) (r : FrameRowBuilder) :
    rowBytes o ty r = .ok (encRow o ty r) := by
  unfold rowBytes encRow
  rw [rowInfo_eq]; rfl

/-- The bytes of the rows of a function. -/
def encRows (o : Endian) (ty : FreAddrSize) (rs : List FrameRowBuilder) : List U8 :=
  rs.flatMap (encRow o ty)

theorem emitRows_eq (o : Endian) (ty : FreAddrSize) (rs : List FrameRowBuilder) (fres : List U8) :
    emitRows o ty rs fres = .ok (fres ++ encRows o ty rs) := by
  induction rs generalizing fres with
  | nil => simp [emitRows, encRows]
  | cons r rs ih =>
    rw [emitRows, rowBytes_eq]
    simp only [Rust.bind_ok]
    rw [ih]
    simp [encRows]

/-- The bytes of the rows of a function, with the width chosen for it. -/
def chunk (o : Endian) (f : FuncDescBuilder) : List U8 := encRows o (addrTy f) f.fres.values

/-- The FDE of a function whose rows begin at `off`. -/
def fdeOf (f : FuncDescBuilder) (off : Nat) : FdeV2 where
  startAddress := f.startAddress
  size := f.size
  startFreOff := BitVec.ofNat 32 off
  numFres := BitVec.ofNat 32 f.fres.length
  repSize := f.repSize.getD 0#8
  info := fdeInfo f (addrTy f)
  padding2 := 0#16

/-- The FDEs of the functions whose rows begin at `off`. -/
def fdesOf (o : Endian) : List FuncDescBuilder → Nat → List FdeV2
  | [], _ => []
  | f :: fs, off => fdeOf f off :: fdesOf o fs (off + (chunk o f).length)

/-- All row bytes. -/
def chunks (o : Endian) (fs : List FuncDescBuilder) : List U8 := fs.flatMap (chunk o)

/-- The number of rows. -/
def rowCount (fs : List FuncDescBuilder) : Nat := (fs.map fun f => f.fres.length).sum

theorem chunks_cons (o : Endian) (f : FuncDescBuilder) (fs : List FuncDescBuilder) :
    chunks o (f :: fs) = chunk o f ++ chunks o fs := by simp [chunks]

theorem rowCount_cons (f : FuncDescBuilder) (fs : List FuncDescBuilder) :
    rowCount (f :: fs) = f.fres.length + rowCount fs := by simp [rowCount]

theorem u32TryFrom_eq (n : Nat) :
    u32TryFrom n = if n < 2 ^ 32 then some (BitVec.ofNat 32 n) else none := rfl

theorem emitFdes_eq (o : Endian) (fs : List FuncDescBuilder) (hi : ∀ f ∈ fs, FdeInv f)
    (output fres : List U8) (count : Nat) :
    (emitFdes o fs output fres count = .ok (.error .sectionTooLarge) ∧
      ¬ (fres.length + (chunks o fs).length < 2 ^ 32 ∧ count + rowCount fs < 2 ^ 32)) ∨
    emitFdes o fs output fres count = .ok (.ok
      (output ++ (fdesOf o fs fres.length).flatMap (FdeV2.bytes o), fres ++ chunks o fs,
        count + rowCount fs)) := by
  induction fs generalizing output fres count with
  | nil => exact .inr (by simp [emitFdes, fdesOf, chunks, rowCount])
  | cons f fs ih =>
    rw [chunks_cons, rowCount_cons]
    unfold emitFdes
    rw [u32TryFrom_eq]
    by_cases h1 : fres.length < 2 ^ 32
    case neg =>
      rw [if_neg h1]
      exact .inl ⟨rfl, by simp only [List.length_append]; omega⟩
    rw [if_pos h1, addrType_eq (hi f (by simp))]
    simp only [Rust.bind_ok]
    rw [u32TryFrom_eq]
    by_cases h2 : f.fres.length < 2 ^ 32
    case neg =>
      rw [if_neg h2]
      exact .inl ⟨rfl, by omega⟩
    rw [if_pos h2]
    simp only [emitRows_eq, Rust.bind_ok]
    rcases ih (fun g hg => hi g (List.mem_cons_of_mem _ hg))
      (output ++ FdeV2.bytes o (fdeOf f fres.length)) (fres ++ chunk o f) (count + f.fres.length)
      with ⟨h, hb⟩ | h
    · left
      refine ⟨h, ?_⟩
      simp only [List.length_append] at hb ⊢
      omega
    · right
      refine Eq.trans h ?_
      simp only [fdesOf, List.flatMap_cons, List.length_append, List.append_assoc, Nat.add_assoc]

/-- The header. -/
def headerOf (o : Endian) (b : SFrameBuilder) : Header where
  preamble := { magic := MAGIC, version := Version.V2, flags := b.options.flags }
  abiArch := b.options.abiArch
  fixedFpOffset := match b.options.fixedFp with | some x => x.val | none => 0#8
  fixedRaOffset := match b.options.fixedRa with | some x => x.val | none => 0#8
  auxhdrLen := 0#8
  numFdes := BitVec.ofNat 32 b.fdes.length
  numFres := BitVec.ofNat 32 (rowCount b.fdes.values)
  freLen := BitVec.ofNat 32 (chunks o b.fdes.values).length
  fdeoff := 0#32
  freoff := BitVec.ofNat 32 (20 * b.fdes.length)

/-- The section. -/
def image (o : Endian) (b : SFrameBuilder) : List U8 :=
  (headerOf o b).bytes o ++ (fdesOf o b.fdes.values 0).flatMap (FdeV2.bytes o)
    ++ chunks o b.fdes.values

/-- All numbers that go into the header fit. -/
def Fits (o : Endian) (b : SFrameBuilder) : Prop :=
  20 * b.fdes.length < 2 ^ 32 ∧ rowCount b.fdes.values < 2 ^ 32 ∧
    (chunks o b.fdes.values).length < 2 ^ 32

instance (o : Endian) (b : SFrameBuilder) : Decidable (Fits o b) :=
  inferInstanceAs (Decidable (_ ∧ _ ∧ _))

theorem FdeV2.bytes_length (o : Endian) (f : FdeV2) : (f.bytes o).length = 20 := by
  simp [FdeV2.bytes]

theorem Header.bytes_length (o : Endian) (h : Header) : (h.bytes o).length = 28 := by
  simp [Header.bytes, Preamble.bytes]

theorem fdesOf_length (o : Endian) (fs : List FuncDescBuilder) (off : Nat) :
    (fdesOf o fs off).length = fs.length := by
  induction fs generalizing off with
  | nil => rfl
  | cons f fs ih => simp [fdesOf, ih]

theorem flatMap_length_const {α β : Type} (l : List α) (f : α → List β) (n : Nat)
    (h : ∀ x, (f x).length = n) : (l.flatMap f).length = n * l.length := by
  induction l with
  | nil => simp
  | cons a l ih => simp [ih, h, Nat.mul_add]; omega

theorem table_length (o : Endian) (fs : List FuncDescBuilder) (off : Nat) :
    ((fdesOf o fs off).flatMap (FdeV2.bytes o)).length = 20 * fs.length := by
  rw [flatMap_length_const _ _ 20 (FdeV2.bytes_length o), fdesOf_length]

theorem build_eq (dbg : Bool) (o : Endian) (b : SFrameBuilder) (hb : BuilderInv b) :
    b.build dbg o = (anyPairs (overlaps dbg) b.fdes.values).bind fun ov =>
      .ok (if ov then .error .overlappingFdes
        else if Fits o b then .ok (image o b) else .error .sectionTooLarge) := by
  unfold build
  cases hov : anyPairs (overlaps dbg) b.fdes.values with
  | panic p => rfl
  | diverge => rfl
  | ok ov =>
    simp only [Rust.bind_ok]
    cases ov with
    | true => simp
    | false =>
      simp only [Bool.false_eq_true, if_false]
      have hv : b.fdes.values.length = b.fdes.length := by simp [BMap.values]
      rcases emitFdes_eq o b.fdes.values (by
          intro f hf
          simp only [BMap.values, List.mem_map] at hf
          obtain ⟨e, he, rfl⟩ := hf
          exact hb.fde e he) (List.replicate Header.size 0#8) [] 0 with ⟨h, hbig⟩ | h
      · rw [h]
        simp only [Rust.bind_ok]
        rw [if_neg]
        rintro ⟨_, h2, h3⟩
        simp only [List.length_nil] at hbig
        omega
      · rw [h]
        simp only [Rust.bind_ok, List.nil_append, List.length_nil, Nat.zero_add]
        rw [u32TryFrom_eq (rowCount _)]
        by_cases h1 : rowCount b.fdes.values < 2 ^ 32
        case neg =>
          rw [if_neg h1, if_neg (fun hh => h1 hh.2.1)]
        rw [if_pos h1]
        simp only
        have hlen : (List.replicate Header.size 0#8 ++
            (fdesOf o b.fdes.values 0).flatMap (FdeV2.bytes o)).length - Header.size
            = 20 * b.fdes.length := by
          rw [List.length_append, table_length, hv]; simp
        rw [hlen]
        simp only [u32TryFrom_eq]
        by_cases h2 : 20 * b.fdes.length < 2 ^ 32
        case neg =>
          rw [if_neg (show ¬ Fits o b from fun hh => h2 hh.1)]
          simp only [h2, if_false]
          split <;> simp_all
        by_cases h3 : (chunks o b.fdes.values).length < 2 ^ 32
        case neg =>
          rw [if_neg (show ¬ Fits o b from fun hh => h3 hh.2.2)]
          simp only [h3, if_false]
          split <;> simp_all
        rw [if_pos (show Fits o b from ⟨h2, h1, h3⟩)]
        simp only [h2, h3, if_true, if_pos (show b.fdes.length < 2 ^ 32 by omega)]
        have hd : (List.replicate Header.size 0#8 ++
            (fdesOf o b.fdes.values 0).flatMap (FdeV2.bytes o)).drop Header.size
            = (fdesOf o b.fdes.values 0).flatMap (FdeV2.bytes o) :=
          List.drop_left' (by simp)
        rw [hd]
        rfl

/-! ### Reading one row back -/

/-- `x` stored in a field of width `t` and read back. -/
def truncTo (t : FreAddrSize) (x : I32) : Int :=
  match t with
  | .u8 => (x.setWidth 8).toInt
  | .u16 => (x.setWidth 16).toInt
  | .u32 => x.toInt

/-- What the reader sees of a row. -/
def rowView (r : FrameRowBuilder) : FreView where
  start := r.startAddress.toNat
  base := r.baseReg
  mangled := r.mangled
  offsets := (rowValues r).map (truncTo (rowOffsetType r))

theorem startBytes_length (o : Endian) (t : FreAddrSize) (x : U32) :
    (startBytes o t x).length = t.bytes := by
  cases t <;> simp [startBytes, FreAddrSize.bytes]

theorem offsetBytes_length (o : Endian) (t : FreAddrSize) (x : I32) :
    (offsetBytes o t x).length = t.bytes := by
  cases t <;> simp [offsetBytes, FreAddrSize.bytes]

theorem startBytes_read (o : Endian) (t : FreAddrSize) (x : U32) (rest : List U8)
    (h : x.toNat < 256 ^ t.bytes) : uintAt o (startBytes o t x ++ rest) 0 t.bytes = x.toNat := by
  cases t with
  | u8 =>
    simp only [startBytes, FreAddrSize.bytes] at *
    rw [← byteAt_toNat o (by simp)]
    simp [byteAt]; omega
  | u16 =>
    simp only [startBytes, FreAddrSize.bytes] at *
    rw [← readU16_toNat o (by simp), readU16_u16Bytes]
    simp; omega
  | u32 =>
    simp only [startBytes, FreAddrSize.bytes] at *
    rw [← readU32_toNat o (by simp), readU32_u32Bytes]

theorem offsetBytes_read (o : Endian) (t : FreAddrSize) (x : I32) (rest : List U8) :
    sintAt o (offsetBytes o t x ++ rest) 0 t.bytes = truncTo t x := by
  cases t with
  | u8 =>
    simp only [offsetBytes, FreAddrSize.bytes, truncTo]
    rw [← byteAt_toInt o (by simp)]
    simp [byteAt]
  | u16 =>
    simp only [offsetBytes, FreAddrSize.bytes, truncTo]
    rw [← readU16_toInt o (by simp), readU16_u16Bytes]
  | u32 =>
    simp only [offsetBytes, FreAddrSize.bytes, truncTo]
    rw [← readU32_toInt o (by simp), readU32_u32Bytes]

theorem uintAt_append_right (o : Endian) (a b : List U8) (p n : Nat) :
    uintAt o (a ++ b) (a.length + p) n = uintAt o b p n := by
  unfold uintAt
  rw [← List.drop_drop, List.drop_left]

theorem sintAt_append_right (o : Endian) (a b : List U8) (p n : Nat) :
    sintAt o (a ++ b) (a.length + p) n = sintAt o b p n := by
  unfold sintAt; rw [uintAt_append_right]

theorem offsets_read (o : Endian) (t : FreAddrSize) (xs : List I32) (rest : List U8) :
    (List.range xs.length).map (fun i =>
      sintAt o (xs.flatMap (offsetBytes o t) ++ rest) (t.bytes * i) t.bytes)
      = xs.map (truncTo t) := by
  induction xs with
  | nil => rfl
  | cons x xs ih =>
    rw [List.length_cons, List.range_succ_eq_map, List.map_cons, List.map_map, List.map_cons]
    congr 1
    · rw [Nat.mul_zero, List.flatMap_cons, List.append_assoc, offsetBytes_read]
    · rw [← ih]
      apply List.map_congr_left
      intro i _
      simp only [Function.comp_apply, List.flatMap_cons, List.append_assoc]
      have := sintAt_append_right o (offsetBytes o t x) (xs.flatMap (offsetBytes o t) ++ rest)
        (t.bytes * i) t.bytes
      rw [offsetBytes_length] at this
      rw [← this]
      congr 1
      rw [Nat.mul_succ]; omega

theorem decodeFre_encRow (o : Endian) (t : FreAddrSize) (r : FrameRowBuilder) (rest : List U8)
    (fdeInfo : Nat) (hw : addrWidth fdeInfo = some t.bytes)
    (hs : r.startAddress.toNat < 256 ^ t.bytes) :
    decodeFre o fdeInfo (encRow o t r ++ rest) = .ok (rowView r, rest) := by
  obtain ⟨p1, p2, p3, p4⟩ := infoByte_parts r
  unfold decodeFre
  rw [hw]
  simp only
  have hlen : (encRow o t r ++ rest).length
      = t.bytes + 1 + (rowOffsetType r).bytes * (rowValues r).length + rest.length := by
    simp only [encRow, List.length_append, startBytes_length, List.length_singleton,
      flatMap_length_const _ _ _ (offsetBytes_length o (rowOffsetType r))]
  have hb : uintAt o (encRow o t r ++ rest) t.bytes 1 = (infoByte r).toNat := by
    have := uintAt_append_right o (startBytes o t r.startAddress)
      ([infoByte r] ++ (rowValues r).flatMap (offsetBytes o (rowOffsetType r)) ++ rest) 0 1
    rw [startBytes_length] at this
    simp only [encRow, List.append_assoc] at this ⊢
    rw [Nat.add_zero] at this
    rw [this, ← byteAt_toNat o (by simp)]
    simp [byteAt]
  rw [if_neg (by rw [hlen]; omega)]
  rw [hb, p1, if_neg (by have := rowValues_length_le r; omega), p2]
  simp only
  rw [if_neg (by rw [hlen]; omega)]
  simp only [Except.ok.injEq, Prod.mk.injEq]
  refine ⟨?_, ?_⟩
  · unfold rowView
    simp only [FreView.mk.injEq]
    refine ⟨?_, p3, p4, ?_⟩
    · simp only [encRow, List.append_assoc]
      exact startBytes_read o t _ _ hs
    · rw [← offsets_read o (rowOffsetType r) (rowValues r) rest]
      apply List.map_congr_left
      intro i _
      have := sintAt_append_right o (startBytes o t r.startAddress ++ [infoByte r])
        ((rowValues r).flatMap (offsetBytes o (rowOffsetType r)) ++ rest)
        ((rowOffsetType r).bytes * i) (rowOffsetType r).bytes
      rw [List.length_append, startBytes_length, List.length_singleton] at this
      rw [← this, encRow]
      simp only [List.append_assoc]
  · have : t.bytes + 1 + (rowOffsetType r).bytes * (rowValues r).length = (encRow o t r).length := by
      rw [List.length_append] at hlen; omega
    rw [this, List.drop_left]

theorem decodeFres_encRows (o : Endian) (t : FreAddrSize) (rs : List FrameRowBuilder)
    (rest : List U8) (fdeInfo : Nat) (hw : addrWidth fdeInfo = some t.bytes)
    (hs : ∀ r ∈ rs, r.startAddress.toNat < 256 ^ t.bytes) :
    decodeFres o fdeInfo rs.length (encRows o t rs ++ rest) = rs.map fun r => .ok (rowView r) := by
  induction rs with
  | nil => rfl
  | cons r rs ih =>
    simp only [List.length_cons, decodeFres, encRows, List.flatMap_cons, List.append_assoc]
    rw [decodeFre_encRow o t r _ fdeInfo hw (hs r (by simp))]
    simp only [List.map_cons]
    have := ih fun r hr => hs r (List.mem_cons_of_mem _ hr)
    rw [encRows] at this
    rw [this]

theorem fdeInfo_width (f : FuncDescBuilder) (t : FreAddrSize) :
    addrWidth (fdeInfo f t).toNat = some t.bytes ∧
    ((fdeInfo f t).toNat / 2 ^ 3 % 2 = 1 ↔ f.repSize.isSome) ∧
    ((fdeInfo f t).toNat / 2 ^ 4 % 2 = 1 ↔ f.pauthKey = .B) ∧ (fdeInfo f t).toNat < 32 := by
  unfold fdeInfo FuncDescBuilder.fdetype
  cases f.repSize <;> cases f.pauthKey <;> cases t <;>
    simp only [Option.isSome_some, Option.isSome_none] <;> decide

end Verif
