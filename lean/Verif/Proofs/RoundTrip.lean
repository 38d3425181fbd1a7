import Verif.Proofs.Emit
import Verif.Proofs.Iter
/-!
# Loading what `build` emitted
-/

namespace Verif
open Spec SFrameBuilder

theorem readU32_at (o : Endian) {s pre rest : List U8} {x : U32} {k : Nat}
    (hs : s = pre ++ (u32Bytes o x ++ rest)) (hk : pre.length = k) : readU32 o s k = x := by
  subst hs hk
  rw [readU32_append_right o (Nat.le_refl _), Nat.sub_self, readU32_u32Bytes]

theorem readU16_at (o : Endian) {s pre rest : List U8} {x : U16} {k : Nat}
    (hs : s = pre ++ (u16Bytes o x ++ rest)) (hk : pre.length = k) : readU16 o s k = x := by
  subst hs hk
  rw [readU16_append_right o (Nat.le_refl _), Nat.sub_self, readU16_u16Bytes]

theorem byteAt_at {s pre rest : List U8} {x : U8} {k : Nat}
    (hs : s = pre ++ (x :: rest)) (hk : pre.length = k) : byteAt s k = x := by
  subst hs hk
  rw [byteAt_append_right (Nat.le_refl _), Nat.sub_self]
  simp [byteAt]

theorem Header.decode_bytes (o : Endian) (h : Header) (rest : List U8) :
    Header.decode o (h.bytes o ++ rest) = h := by
  obtain ⟨⟨magic, version, flags⟩, abi, fp, ra, aux, nf, nr, fl, fo, ro⟩ := h
  simp only [Header.decode, Preamble.decode, Header.bytes, Preamble.bytes, Header.mk.injEq,
    Preamble.mk.injEq]
  refine ⟨⟨?_, ?_, ?_⟩, ?_, ?_, ?_, ?_, ?_, ?_, ?_, ?_, ?_⟩
  · exact readU16_at o (pre := []) (by simp only [List.append_assoc, List.nil_append] <;> rfl) rfl
  · exact byteAt_at (pre := u16Bytes o magic)
      (by simp only [List.append_assoc, List.cons_append] <;> rfl) (by simp)
  · exact byteAt_at (pre := u16Bytes o magic ++ [version])
      (by simp only [List.append_assoc, List.cons_append, List.nil_append] <;> rfl) (by simp)
  · exact byteAt_at (pre := u16Bytes o magic ++ [version, flags])
      (by simp only [List.append_assoc, List.cons_append, List.nil_append] <;> rfl) (by simp)
  · exact byteAt_at (pre := u16Bytes o magic ++ [version, flags, abi])
      (by simp only [List.append_assoc, List.cons_append, List.nil_append] <;> rfl) (by simp)
  · exact byteAt_at (pre := u16Bytes o magic ++ [version, flags, abi, fp])
      (by simp only [List.append_assoc, List.cons_append, List.nil_append] <;> rfl) (by simp)
  · exact byteAt_at (pre := u16Bytes o magic ++ [version, flags, abi, fp, ra])
      (by simp only [List.append_assoc, List.cons_append, List.nil_append] <;> rfl) (by simp)
  · exact readU32_at o (pre := u16Bytes o magic ++ [version, flags, abi, fp, ra, aux])
      (by simp only [List.append_assoc, List.cons_append, List.nil_append] <;> rfl) (by simp)
  · exact readU32_at o (pre := u16Bytes o magic ++ [version, flags, abi, fp, ra, aux] ++ u32Bytes o nf)
      (by simp only [List.append_assoc, List.cons_append, List.nil_append] <;> rfl) (by simp)
  · exact readU32_at o (pre := u16Bytes o magic ++ [version, flags, abi, fp, ra, aux] ++ u32Bytes o nf
        ++ u32Bytes o nr)
      (by simp only [List.append_assoc, List.cons_append, List.nil_append] <;> rfl) (by simp)
  · exact readU32_at o (pre := u16Bytes o magic ++ [version, flags, abi, fp, ra, aux] ++ u32Bytes o nf
        ++ u32Bytes o nr ++ u32Bytes o fl)
      (by simp only [List.append_assoc, List.cons_append, List.nil_append] <;> rfl) (by simp)
  · exact readU32_at o (pre := u16Bytes o magic ++ [version, flags, abi, fp, ra, aux] ++ u32Bytes o nf
        ++ u32Bytes o nr ++ u32Bytes o fl ++ u32Bytes o fo)
      (by simp only [List.append_assoc, List.cons_append, List.nil_append] <;> rfl) (by simp)

theorem FdeV2.decode_bytes (o : Endian) (f : FdeV2) (rest : List U8) :
    FdeV2.decode o (f.bytes o ++ rest) = f := by
  obtain ⟨st, sz, off, n, info, rep, pad⟩ := f
  simp only [FdeV2.decode, FdeV2.bytes, FdeV2.mk.injEq]
  refine ⟨?_, ?_, ?_, ?_, ?_, ?_, ?_⟩
  · exact readU32_at o (pre := []) (by simp only [List.append_assoc, List.nil_append] <;> rfl) rfl
  · exact readU32_at o (pre := u32Bytes o st)
      (by simp only [List.append_assoc] <;> rfl) (by simp)
  · exact readU32_at o (pre := u32Bytes o st ++ u32Bytes o sz)
      (by simp only [List.append_assoc] <;> rfl) (by simp)
  · exact readU32_at o (pre := u32Bytes o st ++ u32Bytes o sz ++ u32Bytes o off)
      (by simp only [List.append_assoc] <;> rfl) (by simp)
  · exact byteAt_at (pre := u32Bytes o st ++ u32Bytes o sz ++ u32Bytes o off ++ u32Bytes o n)
      (by simp only [List.append_assoc, List.cons_append] <;> rfl) (by simp)
  · exact byteAt_at (pre := u32Bytes o st ++ u32Bytes o sz ++ u32Bytes o off ++ u32Bytes o n ++ [info])
      (by simp only [List.append_assoc, List.cons_append, List.nil_append] <;> rfl) (by simp)
  · exact readU16_at o (pre := u32Bytes o st ++ u32Bytes o sz ++ u32Bytes o off ++ u32Bytes o n
        ++ [info, rep])
      (by simp only [List.append_assoc, List.cons_append, List.nil_append] <;> rfl) (by simp)

theorem table_read (o : Endian) (l : List FdeV2) (rest : List U8) :
    (List.range l.length).map (fun i =>
      FdeV2.decode o ((l.flatMap (FdeV2.bytes o) ++ rest).drop (i * 20))) = l := by
  induction l with
  | nil => rfl
  | cons f l ih =>
    rw [List.length_cons, List.range_succ_eq_map, List.map_cons, List.map_map]
    congr 1
    · rw [Nat.zero_mul, List.drop_zero, List.flatMap_cons, List.append_assoc, FdeV2.decode_bytes]
    · conv => rhs; rw [← ih]
      apply List.map_congr_left
      intro i _
      simp only [Function.comp_apply, List.flatMap_cons, List.append_assoc]
      rw [show i.succ * 20 = (f.bytes o).length + i * 20 by rw [FdeV2.bytes_length]; omega,
        ← List.drop_drop, List.drop_left]

/-- What loading the image gives. -/
def readBack (o : Endian) (b : SFrameBuilder) : SFrame o where
  preamble := { magic := MAGIC, version := Version.V2, flags := b.options.flags }
  abiArch := b.options.abiArch
  fixedFp := match b.options.fixedFp with | some x => x.val | none => 0#8
  fixedRa := match b.options.fixedRa with | some x => x.val | none => 0#8
  numFdes := BitVec.ofNat 32 b.fdes.length
  numFres := BitVec.ofNat 32 (rowCount b.fdes.values)
  aux := []
  fdes := .v2 (fdesOf o b.fdes.values 0)
  fres := chunks o b.fdes.values

theorem image_length (o : Endian) (b : SFrameBuilder) :
    (image o b).length = 28 + 20 * b.fdes.length + (chunks o b.fdes.values).length := by
  have hv : b.fdes.values.length = b.fdes.length := by simp [BMap.values]
  simp only [image, List.length_append, Header.bytes_length, table_length, hv]

/-- The header numbers of the image. -/
theorem image_header (o : Endian) (b : SFrameBuilder) (h : Fits o b) :
    Header.decode o (image o b) = headerOf o b ∧
    magic o (image o b) = 0xDEE2 ∧ version o (image o b) = 2 ∧
    flags o (image o b) = b.options.flags.toNat ∧
    abi o (image o b) = b.options.abiArch.toNat ∧
    fixedFp o (image o b) = (match b.options.fixedFp with | some x => x.val.toInt | none => 0) ∧
    fixedRa o (image o b) = (match b.options.fixedRa with | some x => x.val.toInt | none => 0) ∧
    auxLen o (image o b) = 0 ∧
    numFdes o (image o b) = b.fdes.length ∧ numFres o (image o b) = rowCount b.fdes.values ∧
    freLen o (image o b) = (chunks o b.fdes.values).length ∧ fdeOff o (image o b) = 0 ∧
    freOff o (image o b) = 20 * b.fdes.length := by
  have hd : Header.decode o (image o b) = headerOf o b := by
    unfold image
    rw [List.append_assoc]
    exact Header.decode_bytes o _ _
  have hl := image_length o b
  obtain ⟨h1, h2, h3⟩ := h
  refine ⟨hd, ?_, ?_, ?_, ?_, ?_, ?_, ?_, ?_, ?_, ?_, ?_, ?_⟩
  · rw [magic, ← readU16_toNat o (by omega)]
    exact congrArg (fun x => x.preamble.magic.toNat) hd
  · rw [version, ← byteAt_toNat o (by omega)]
    exact congrArg (fun x => x.preamble.version.toNat) hd
  · rw [flags, ← byteAt_toNat o (by omega)]
    exact congrArg (fun x => x.preamble.flags.toNat) hd
  · rw [abi, ← byteAt_toNat o (by omega)]
    exact congrArg (fun x => x.abiArch.toNat) hd
  · rw [fixedFp, ← byteAt_toInt o (by omega)]
    refine (congrArg (fun x => x.fixedFpOffset.toInt) hd).trans ?_
    simp only [headerOf]
    cases b.options.fixedFp <;> rfl
  · rw [fixedRa, ← byteAt_toInt o (by omega)]
    refine (congrArg (fun x => x.fixedRaOffset.toInt) hd).trans ?_
    simp only [headerOf]
    cases b.options.fixedRa <;> rfl
  · rw [auxLen, ← byteAt_toNat o (by omega)]
    exact congrArg (fun x => x.auxhdrLen.toNat) hd
  · rw [Spec.numFdes, ← readU32_toNat o (by omega)]
    refine (congrArg (fun x => x.numFdes.toNat) hd).trans ?_
    simp only [headerOf, BitVec.toNat_ofNat]; omega
  · rw [Spec.numFres, ← readU32_toNat o (by omega)]
    refine (congrArg (fun x => x.numFres.toNat) hd).trans ?_
    simp only [headerOf, BitVec.toNat_ofNat]; omega
  · rw [Spec.freLen, ← readU32_toNat o (by omega)]
    refine (congrArg (fun x => x.freLen.toNat) hd).trans ?_
    simp only [headerOf, BitVec.toNat_ofNat]; omega
  · rw [fdeOff, ← readU32_toNat o (by omega)]
    exact congrArg (fun x => x.fdeoff.toNat) hd
  · rw [freOff, ← readU32_toNat o (by omega)]
    refine (congrArg (fun x => x.freoff.toNat) hd).trans ?_
    simp only [headerOf, BitVec.toNat_ofNat]; omega

theorem image_loads (o : Endian) (b : SFrameBuilder) (h : Fits o b) :
    Loads o (image o b) ∧ fdeSize o (image o b) = 20 ∧ tablePos o (image o b) = 28 ∧
    fresPos o (image o b) = 28 + 20 * b.fdes.length := by
  obtain ⟨_, h1, h2, h3, h4, h5, h6, h7, h8, h9, h10, h11, h12⟩ := image_header o b h
  have hl := image_length o b
  have hs : fdeSize o (image o b) = 20 := by simp [fdeSize, h2]
  have hb : bodyPos o (image o b) = 28 := by simp [bodyPos, h7]
  have ht : tablePos o (image o b) = 28 := by simp [tablePos, hb, h11]
  have hf : fresPos o (image o b) = 28 + 20 * b.fdes.length := by simp [fresPos, hb, h12]
  exact ⟨⟨h1, .inr h2, by omega, by omega, by rw [ht, h8, hs]; omega, by rw [hf, h10]; omega⟩,
    hs, ht, hf⟩

theorem image_table (o : Endian) (b : SFrameBuilder) (h : Fits o b) :
    tableOf o (image o b) = .v2 (fdesOf o b.fdes.values 0) := by
  obtain ⟨_, h1, h2, h3, h4, h5, h6, h7, h8, h9, h10, h11, h12⟩ := image_header o b h
  obtain ⟨_, hs, ht, hf⟩ := image_loads o b h
  have hv : b.fdes.values.length = b.fdes.length := by simp [BMap.values]
  unfold tableOf
  rw [if_neg (by rw [h2]; decide), h8]
  congr 1
  have := table_read o (fdesOf o b.fdes.values 0) (chunks o b.fdes.values)
  rw [fdesOf_length, hv] at this
  refine Eq.trans ?_ this
  apply List.map_congr_left
  intro i _
  congr 1
  rw [fdePos, ht, hs, ← List.drop_drop, image, List.append_assoc,
    List.drop_left' (Header.bytes_length o _)]

theorem image_fres (o : Endian) (b : SFrameBuilder) (h : Fits o b) :
    span (image o b) (fresPos o (image o b)) (Spec.freLen o (image o b))
      = chunks o b.fdes.values := by
  obtain ⟨_, h1, h2, h3, h4, h5, h6, h7, h8, h9, h10, h11, h12⟩ := image_header o b h
  obtain ⟨_, hs, ht, hf⟩ := image_loads o b h
  have hv : b.fdes.values.length = b.fdes.length := by simp [BMap.values]
  unfold span
  rw [hf, h10, image, List.drop_left' (by
    rw [List.length_append, Header.bytes_length, table_length, hv]), List.take_length]

theorem load_image (o : Endian) (b : SFrameBuilder) (h : Fits o b) :
    SFrame.load o (image o b) = .ok (.ok (readBack o b)) := by
  rw [load_ok_iff]
  refine ⟨(image_loads o b h).1, ?_⟩
  obtain ⟨hd, h1, h2, h3, h4, h5, h6, h7, h8, h9, h10, h11, h12⟩ := image_header o b h
  unfold sectionOf readBack
  rw [image_table o b h, image_fres o b h, h7]
  simp only [SFrame.mk.injEq, and_true]
  refine ⟨?_, ?_, ?_, ?_, ?_, ?_, by simp [span]⟩
  · exact (congrArg (fun x => x.preamble) hd).symm
  · exact (congrArg (fun x => x.abiArch) hd).symm
  · exact (congrArg (fun x => x.fixedFpOffset) hd).symm
  · exact (congrArg (fun x => x.fixedRaOffset) hd).symm
  · exact (congrArg (fun x => x.numFdes) hd).symm
  · exact (congrArg (fun x => x.numFres) hd).symm

/-- Where the rows of function `i` begin. -/
def chunkPos (o : Endian) (fs : List FuncDescBuilder) (i : Nat) : Nat :=
  (chunks o (fs.take i)).length

theorem fdesOf_getElem? (o : Endian) (fs : List FuncDescBuilder) (off i : Nat) :
    (fdesOf o fs off)[i]? = fs[i]?.map fun f => fdeOf f (off + chunkPos o fs i) := by
  induction fs generalizing off i with
  | nil => simp [fdesOf]
  | cons f fs ih =>
    cases i with
    | zero => simp [fdesOf, chunkPos, chunks]
    | succ i =>
      simp only [fdesOf, List.getElem?_cons_succ, ih, chunkPos, List.take_succ_cons, chunks_cons,
        List.length_append, Nat.add_assoc]

theorem chunks_drop (o : Endian) (fs : List FuncDescBuilder) (i : Nat) :
    (chunks o fs).drop (chunkPos o fs i) = chunks o (fs.drop i) := by
  have h : chunks o fs = chunks o (fs.take i) ++ chunks o (fs.drop i) := by
    rw [chunks, chunks, chunks, ← List.flatMap_append, List.take_append_drop]
  rw [chunkPos, h, List.drop_left]

theorem chunkPos_le (o : Endian) (fs : List FuncDescBuilder) (i : Nat) :
    chunkPos o fs i ≤ (chunks o fs).length := by
  conv => rhs; rw [← List.take_append_drop i fs]
  rw [chunkPos, chunks, chunks, List.flatMap_append, List.length_append]
  omega

theorem length_le_rowCount {fs : List FuncDescBuilder} {f : FuncDescBuilder} (h : f ∈ fs) :
    f.fres.length ≤ rowCount fs := by
  induction fs with
  | nil => cases h
  | cons g fs ih =>
    rw [rowCount_cons]
    rcases List.mem_cons.1 h with rfl | h
    · omega
    · have := ih h; omega

/-- The entries of the loaded image: the FDE and the bytes from its own rows on. -/
theorem readBack_entries (o : Endian) (b : SFrameBuilder) (h : Fits o b) :
    ∃ es, (readBack o b).iter.collect = .ok es ∧ es.length = b.fdes.length ∧
      ∀ (i : Nat) f, b.fdes.values[i]? = some f → ∃ rest,
        es[i]? = some ⟨.v2 (fdeOf f (chunkPos o b.fdes.values i)), chunk o f ++ rest⟩ := by
  refine ⟨_, FuncDescIter.collect_eq _, ?_, fun i f hf => ?_⟩
  · simp only [readBack, SFrame.iter, FdeList.toList, List.length_map, fdesOf_length, BMap.values]
  · refine ⟨chunks o (b.fdes.values.drop (i + 1)), ?_⟩
    simp only [readBack, SFrame.iter, FdeList.toList, List.getElem?_map, fdesOf_getElem?, hf,
      Option.map_some, Nat.zero_add, Option.some.injEq, entryOf, FuncDescEntry.mk.injEq, true_and]
    have hpos := chunkPos_le o b.fdes.values i
    have h3 := h.2.2
    simp only [Fde.startFreOff, fdeOf, BitVec.toNat_ofNat]
    rw [Nat.mod_eq_of_lt (by omega), chunks_drop]
    obtain ⟨hi, hfi⟩ := List.getElem?_eq_some_iff.1 hf
    rw [List.drop_eq_getElem_cons hi, chunks_cons, hfi]

end Verif
