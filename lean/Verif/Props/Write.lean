import Verif.Props.Builder
import Verif.Props.Fre
import Verif.Props.Load
import Verif.Proofs.Overlap
import Verif.Proofs.Width
/-!
# `build`: C04, C26-C33, C36
-/

namespace Verif
open Spec SFrameBuilder

/-- All outcomes of `build`. -/
theorem build_cases (dbg : Bool) (o : Endian) (b : SFrameBuilder) (hb : BuilderInv b) :
    (b.build dbg o = .panic .overflow ∧ dbg = true ∧
      ∃ i, FarApart (functions b) i ∧ ¬ Overlapping ((functions b).take (i + 1))) ∨
    (¬ (dbg = true ∧
      ∃ i, FarApart (functions b) i ∧ ¬ Overlapping ((functions b).take (i + 1))) ∧
     ((b.build dbg o = .ok (.error .overlappingFdes) ∧ Overlapping (functions b)) ∨
      (b.build dbg o = .ok (.error .sectionTooLarge) ∧ ¬ Overlapping (functions b) ∧
        ¬ Representable (functions b)) ∨
      (b.build dbg o = .ok (.ok (image o b)) ∧ ¬ Overlapping (functions b) ∧
        Representable (functions b)))) := by
  rw [build_eq dbg o b hb, values_functions]
  have hf := fits_iff o hb
  rcases anyPairs_spec dbg (functions b) (functions_ascending hb) with
    ⟨v, h1, h2, h3⟩ | ⟨h1, h2⟩
  · right
    refine ⟨h3, ?_⟩
    rw [h1]
    simp only [Rust.bind_ok]
    by_cases hv : v = true
    · left; exact ⟨by simp [hv], h2.1 hv⟩
    · right
      have hno : ¬ Overlapping (functions b) := fun h => hv (h2.2 h)
      by_cases hr : Representable (functions b)
      · right; exact ⟨by simp [hv, hf.2 hr], hno, hr⟩
      · left; exact ⟨by rw [if_neg hv, if_neg fun h => hr (hf.1 h)], hno, hr⟩
  · left
    exact ⟨by rw [h1]; rfl, h2⟩

namespace Samples

/-- A PcMask function below zero. -/
def fnMask : FuncDescBuilder :=
  { options := opts, startAddress := -0x40, size := 0x40, repSize := some 0x10, pauthKey := .B,
    fres := [(0, row8), (4, row16')] }

theorem fnMask_reachable : fnMask.Reachable :=
  .call (b := { fnMask with fres := [(0, row8)] }) (.row row16) (.call (.row row8)
    (.call (.pauthKey .B) (.call (.pcmask 0x10) (.new opts (-0x40) 0x40) rfl) rfl)
    (by decide +kernel)) (by decide +kernel)

/-- A section with two functions. -/
def sec : SFrameBuilder := { options := opts, fdes := [(-0x40, fnMask), (0x1000, fn2)] }

theorem sec_reachable (dbg : Bool) : SFrameBuilder.Reachable dbg sec :=
  .fde (.fde (.new opts) fn2_reachable (b' := { options := opts, fdes := [(0x1000, fn2)] })
    (by decide +kernel)) fnMask_reachable (by decide +kernel)

/-- What is built from it, little endian. -/
def secOut : List U8 := [
  0xE2, 0xDE, 2, 1, 3, 0, 0xF8, 0, 2, 0, 0, 0, 4, 0, 0, 0, 14, 0, 0, 0, 0, 0, 0, 0, 40, 0, 0, 0,
  0xC0, 0xFF, 0xFF, 0xFF, 0x40, 0, 0, 0, 0, 0, 0, 0, 2, 0, 0, 0, 24, 0x10, 0, 0,
  0, 0x10, 0, 0, 0x20, 0, 0, 0, 7, 0, 0, 0, 2, 0, 0, 0, 0, 0, 0, 0,
  0, 3, 8, 4, 5, 16, 0xF0,
  0, 3, 8, 4, 5, 16, 0xF0]

theorem sec_build (dbg : Bool) : sec.build dbg .little = .ok (.ok secOut) := by
  cases dbg <;> decide +kernel

/-- A function without rows. -/
def bare (start : I32) (size : U32) : FuncDescBuilder := FuncDescBuilder.new opts start size

/-- Two functions without rows. -/
def pair (s₁ : I32) (z₁ : U32) (s₂ : I32) (z₂ : U32) : SFrameBuilder :=
  { options := opts, fdes := [(s₁, bare s₁ z₁), (s₂, bare s₂ z₂)] }

theorem pair_reachable (dbg : Bool) {s₁ s₂ : I32} {z₁ z₂ : U32} (h : s₁.toInt < s₂.toInt) :
    SFrameBuilder.Reachable dbg (pair s₁ z₁ s₂ z₂) := by
  refine .fde (.fde (.new opts) (.new opts s₁ z₁) rfl) (.new opts s₂ z₂) ?_
  have h' : ¬ s₂.toInt < s₁.toInt := by omega
  have h'' : ¬ s₂.toInt = s₁.toInt := by omega
  simp [SFrameBuilder.fde, SFrameBuilder.new, pair, FuncDescBuilder.new, bare, BMap.insert, ordI32,
    h', h'']

end Samples

/-! ### C26 -/

/-- **C26.**  When `build` returns, it reports overlapping functions exactly if some function
starts inside another one, addresses and sizes as integers. -/
theorem C26_overlap (dbg dbg' : Bool) (o : Endian) (b : SFrameBuilder)
    (hb : SFrameBuilder.Reachable dbg' b) (h : (b.build dbg o).Returns) :
    b.build dbg o = .ok (.error .overlappingFdes) ↔ Overlapping (functions b) := by
  obtain ⟨r, hr⟩ := h
  rcases build_cases dbg o b hb.inv with ⟨h1, _⟩ | ⟨_, ⟨h1, h2⟩ | ⟨h1, h2, _⟩ | ⟨h1, h2, _⟩⟩
  · rw [h1] at hr; cases hr
  · exact ⟨fun _ => h2, fun _ => h1⟩
  · rw [h1]; exact ⟨fun h => (by cases h), fun h => absurd h h2⟩
  · rw [h1]; exact ⟨fun h => (by cases h), fun h => absurd h h2⟩

/-- An overlap across address zero is reported; functions that touch are not an overlap; a function
of 3 GiB covers one 2 GiB further. -/
example :
    Overlapping (functions (Samples.pair (-8) 16 4 4)) ∧
    (Samples.pair (-8) 16 4 4).build true .big = .ok (.error .overlappingFdes) ∧
    ¬ Overlapping (functions (Samples.pair (-8) 16 8 4)) ∧
    (Samples.pair (-8) 16 8 4).build true .big ≠ .ok (.error .overlappingFdes) ∧
    (Samples.pair 0x80000000 0xC0000000 0 4).build false .big = .ok (.error .overlappingFdes) := by
  refine ⟨(C26_overlap true true .big _ (Samples.pair_reachable true (by decide)) ⟨_, rfl⟩).1
    (by decide +kernel), by decide +kernel, fun h => ?_, by decide +kernel, by decide +kernel⟩
  have := (C26_overlap true true .big _ (Samples.pair_reachable true (by decide)) ⟨_, rfl⟩).2 h
  revert this
  decide +kernel

/-! ### C27 -/

/-- **C27.**  `build` always ends.  In a release build it never panics.  In a debug build it panics
exactly if two neighbouring functions start more than `i32::MAX` apart and no function up to the
first of them starts inside another one. -/
theorem C27_build_total (dbg dbg' : Bool) (o : Endian) (b : SFrameBuilder)
    (hb : SFrameBuilder.Reachable dbg' b) :
    b.build dbg o ≠ .diverge ∧
    (dbg = false → (b.build dbg o).Returns) ∧
    ((b.build dbg o).Panics ↔ dbg = true ∧
      ∃ i, FarApart (functions b) i ∧ ¬ Overlapping ((functions b).take (i + 1))) := by
  rcases build_cases dbg o b hb.inv with ⟨h1, h2⟩ | ⟨h3, h⟩
  · rw [h1]
    exact ⟨by simp, fun hd => (by rw [hd] at h2; cases h2.1), ⟨fun _ => h2, fun _ => ⟨_, rfl⟩⟩⟩
  · have : ∃ r, b.build dbg o = .ok r := by
      rcases h with ⟨h1, _⟩ | ⟨h1, _⟩ | ⟨h1, _⟩ <;> exact ⟨_, h1⟩
    obtain ⟨r, hr⟩ := this
    rw [hr]
    exact ⟨by simp, fun _ => ⟨_, rfl⟩, ⟨fun ⟨p, hp⟩ => (by cases hp), fun hh => absurd hh h3⟩⟩

/-- The panic happens in debug builds only; an overlap before it is reported instead. -/
example : (Samples.pair 0x80000000 4 0 4).build true .little = .panic .overflow ∧
    ((Samples.pair 0x80000000 4 0 4).build false .little).Returns ∧
    SFrameBuilder.build true .little { options := Samples.opts, fdes := [
      (0x80000000, Samples.bare 0x80000000 4), (0x80000001, Samples.bare 0x80000001 4),
      (0x7FFFFFFF, Samples.bare 0x7FFFFFFF 4)] } = .ok (.error .overlappingFdes) := by
  refine ⟨by decide +kernel, (C27_build_total false true .little _
    (Samples.pair_reachable true (by decide))).2.1 rfl, by decide +kernel⟩

/-! ### C29 -/

/-- **C29.**  When `build` returns, it reports a section that is too large exactly if no function
starts inside another one and the table size, the number of rows, or the size of the rows in bytes
does not fit in 32 bits. -/
theorem C29_too_large (dbg dbg' : Bool) (o : Endian) (b : SFrameBuilder)
    (hb : SFrameBuilder.Reachable dbg' b) (h : (b.build dbg o).Returns) :
    b.build dbg o = .ok (.error .sectionTooLarge) ↔
      ¬ Overlapping (functions b) ∧ ¬ Representable (functions b) := by
  obtain ⟨r, hr⟩ := h
  rcases build_cases dbg o b hb.inv with ⟨h1, _⟩ | ⟨_, ⟨h1, h2⟩ | ⟨h1, h2⟩ | ⟨h1, h2, h3⟩⟩
  · rw [h1] at hr; cases hr
  · rw [h1]; exact ⟨fun h => (by cases h), fun h => absurd h2 h.1⟩
  · exact ⟨fun _ => h2, fun _ => h1⟩
  · rw [h1]; exact ⟨fun h => (by cases h), fun h => absurd h3 h.2⟩

/-- `n` empty functions at 0, 1, 2, …. -/
theorem many_functions (dbg : Bool) (n : Nat) (hn : n ≤ 2 ^ 31) :
    ∃ b, SFrameBuilder.Reachable dbg b ∧ b.options = Samples.opts ∧ (functions b).length = n ∧
      ∀ f ∈ functions b, f.size = 0 ∧ 0 ≤ f.startAddress.toInt ∧ f.startAddress.toInt < n := by
  induction n with
  | zero => exact ⟨_, .new Samples.opts, rfl, rfl, by simp [functions, SFrameBuilder.new]⟩
  | succ n ih =>
    obtain ⟨b, hb, ho, hl, hf⟩ := ih (by omega)
    have hs : (BitVec.ofNat 32 n).toInt = n := by
      rw [BitVec.toInt_eq_toNat_cond, BitVec.toNat_ofNat, Nat.mod_eq_of_lt (by omega)]
      rw [if_pos (by omega)]
    obtain ⟨b', h1, h2, h3, _⟩ := (C35_fde dbg b hb (Samples.bare (BitVec.ofNat 32 n) 0)).2 ho
    have hfil : (functions b).filter (fun g => decide
        (g.startAddress ≠ (Samples.bare (BitVec.ofNat 32 n) 0).startAddress)) = functions b := by
      rw [List.filter_eq_self]
      intro g hg
      obtain ⟨_, _, h⟩ := hf g hg
      simp only [decide_eq_true_eq]
      intro heq
      rw [heq] at h
      change (BitVec.ofNat 32 n).toInt < n at h
      omega
    rw [hfil] at h3
    refine ⟨b', .fde hb (.new _ _ _) h1, by rw [h2, ho], by rw [h3.length_eq, List.length_cons, hl],
      ?_⟩
    intro f hmem
    rcases List.mem_cons.1 (h3.mem_iff.1 hmem) with rfl | hmem
    · refine ⟨rfl, ?_, ?_⟩
      · change 0 ≤ (BitVec.ofNat 32 n).toInt; omega
      · change (BitVec.ofNat 32 n).toInt < _; omega
    · obtain ⟨h4, h5, h6⟩ := hf f hmem
      exact ⟨h4, h5, by omega⟩

/-- There are sections that are too large: 2^28 empty functions. -/
example : ∃ b, SFrameBuilder.Reachable false b ∧
    b.build false .little = .ok (.error .sectionTooLarge) := by
  obtain ⟨b, hb, _, hl, hf⟩ := many_functions false (2 ^ 28) (by omega)
  refine ⟨b, hb, (C29_too_large false false .little b hb
    ((C27_build_total false false .little b hb).2.1 rfl)).2 ⟨?_, fun h => ?_⟩⟩
  · rintro ⟨f, h1, g, _, h3, h4⟩
    rw [(hf f h1).1] at h4
    simp at h4
    omega
  · have := h.1
    rw [hl] at this
    omega

/-- A successful `build` emitted the image. -/
theorem build_ok {dbg : Bool} {o : Endian} {b : SFrameBuilder} (hb : BuilderInv b) {out : List U8}
    (h : b.build dbg o = .ok (.ok out)) :
    out = image o b ∧ ¬ Overlapping (functions b) ∧ Fits o b := by
  rcases build_cases dbg o b hb with ⟨h1, _⟩ | ⟨_, ⟨h1, h2⟩ | ⟨h1, h2⟩ | ⟨h1, h2, h3⟩⟩
  · rw [h1] at h; cases h
  · rw [h1] at h; cases h
  · rw [h1] at h; cases h
  · rw [h1] at h; cases h
    exact ⟨rfl, h2, (fits_iff o hb).2 h3⟩

/-! ### C33 -/

/-- **C33.**  The width of the row starts that the info byte of a function announces is the one the
rows are written with, and it holds every row start. -/
theorem C33_start_width (f : FuncDescBuilder) (hf : f.Reachable) :
    ∃ t, addrType f = .ok t ∧ addrWidth (fdeInfo f t).toNat = some (startWidth f) ∧
      (∀ o x, (startBytes o t x).length = startWidth f) ∧
      ∀ r ∈ rows f, r.startAddress.toNat < 256 ^ startWidth f := by
  refine ⟨_, addrType_eq hf.inv, ?_, fun o x => ?_, fun r hr => ?_⟩
  · rw [startWidth_eq hf.inv]; exact (fdeInfo_width f _).1
  · rw [startWidth_eq hf.inv]; exact startBytes_length o _ x
  · rw [startWidth_eq hf.inv]
    simp only [rows, List.mem_map] at hr
    obtain ⟨e, he, rfl⟩ := hr
    exact addrTy_fits hf.inv he

/-- Three functions whose last row starts at 4, 0x80 and 0x8000. -/
example : startWidth Samples.fn2 = 1 ∧
    startWidth { Samples.fn2 with fres := [(0x80, { Samples.row8 with startAddress := 0x80 })] } = 2 ∧
    startWidth { Samples.fn2 with fres := [(0x8000, { Samples.row8 with startAddress := 0x8000 })] }
      = 4 := by decide +kernel

/-! ### C28 -/

theorem uintAt_drop (o : Endian) (s : List U8) (p k n : Nat) :
    uintAt o s (p + k) n = uintAt o (s.drop p) k n := by
  unfold uintAt; rw [List.drop_drop]

theorem sintAt_drop (o : Endian) (s : List U8) (p k n : Nat) :
    sintAt o s (p + k) n = sintAt o (s.drop p) k n := by
  unfold sintAt; rw [uintAt_drop]

theorem image_fde {o : Endian} {b : SFrameBuilder} (hb : BuilderInv b) (h : Fits o b) {i : Nat}
    {f : FuncDescBuilder} (hf : (functions b)[i]? = some f) :
    FdeAt o (image o b) (28 + 20 * i) f (totalSize ((functions b).take i)) := by
  have hi : i < (functions b).length := (List.getElem?_eq_some_iff.1 hf).1
  have hmem : f ∈ functions b := List.mem_of_getElem? hf
  have hinv := (hb.function hmem).1
  have ht := image_table o b h
  obtain ⟨_, hs, hp, _⟩ := image_loads o b h
  obtain ⟨_, _, h2, _, _, _, _, _, h8, _⟩ := image_header o b h
  have hd : FdeV2.decode o ((image o b).drop (28 + 20 * i))
      = fdeOf f (totalSize ((functions b).take i)) := by
    unfold tableOf at ht
    rw [if_neg (by rw [h2]; decide)] at ht
    have hg := congrArg (fun l => l[i]?) (FdeList.v2.inj ht)
    simp only [fdesOf_getElem?, values_functions, hf, Option.map_some, Nat.zero_add, h8] at hg
    rw [List.getElem?_map, List.getElem?_range (by rw [← functions_length]; exact hi)] at hg
    simp only [Option.map_some, Option.some.injEq, fdePos, hs, hp] at hg
    rw [Nat.mul_comm, hg, chunkPos, chunks_length]
    intro g hg
    exact (hb.function (List.mem_of_mem_take hg)).1
  have hlen : 20 ≤ ((image o b).drop (28 + 20 * i)).length := by
    rw [List.length_drop, image_length, ← functions_length]; omega
  have hsz : totalSize ((functions b).take i) < 2 ^ 32 := by
    have := chunkPos_le o (functions b) i
    rw [chunkPos, chunks_length o fun g hg => (hb.function (List.mem_of_mem_take hg)).1] at this
    have h3 := h.2.2
    rw [values_functions] at h3
    omega
  have hrc : (rows f).length < 2 ^ 32 := by
    have := length_le_rowCount hmem
    have h3 := h.2.1
    rw [values_functions] at h3
    simp only [rows, List.length_map]
    omega
  constructor
  · have := sintAt_drop o (image o b) (28 + 20 * i) 0 4
    rw [Nat.add_zero] at this
    rw [this, ← readU32_toInt o (by omega)]
    exact congrArg (fun x => x.startAddress.toInt) hd
  · rw [uintAt_drop, ← readU32_toNat o (by omega)]
    exact congrArg (fun x => x.size.toNat) hd
  · rw [uintAt_drop, ← readU32_toNat o (by omega)]
    refine (congrArg (fun x => x.startFreOff.toNat) hd).trans ?_
    simp only [fdeOf, BitVec.toNat_ofNat]; omega
  · rw [uintAt_drop, ← readU32_toNat o (by omega)]
    refine (congrArg (fun x => x.numFres.toNat) hd).trans ?_
    simp only [rows, List.length_map] at hrc ⊢
    simp only [fdeOf, BitVec.toNat_ofNat]; omega
  · rw [uintAt_drop, ← byteAt_toNat o (by omega)]
    refine (congrArg (fun x => x.info.toNat) hd).trans ?_
    rw [startWidth_eq hinv]
    simp only [fdeOf, fdeInfo, FuncDescBuilder.fdetype]
    cases f.repSize <;> cases f.pauthKey <;> cases addrTy f <;>
      simp only [Option.isSome_some, Option.isSome_none] <;> decide
  · rw [uintAt_drop, ← byteAt_toNat o (by omega)]
    refine (congrArg (fun x => x.repSize.toNat) hd).trans ?_
    simp only [fdeOf]
    cases f.repSize <;> rfl
  · rw [uintAt_drop, ← readU16_toNat o (by omega)]
    exact congrArg (fun x => x.padding2.toNat) hd

theorem restAfter_encRows (o : Endian) (t : FreAddrSize) (rs : List FrameRowBuilder)
    (rest : List U8) (fdeInfo : Nat) (hw : addrWidth fdeInfo = some t.bytes)
    (hs : ∀ r ∈ rs, r.startAddress.toNat < 256 ^ t.bytes) :
    restAfter o fdeInfo rs.length (encRows o t rs ++ rest) = some rest := by
  induction rs with
  | nil => rfl
  | cons r rs ih =>
    simp only [List.length_cons, restAfter, encRows, List.flatMap_cons, List.append_assoc]
    rw [decodeFre_encRow o t r _ fdeInfo hw (hs r (by simp))]
    exact ih fun r hr => hs r (List.mem_cons_of_mem _ hr)

/-- **C28.**  What a successful `build` emits: the header, the table of 20 bytes per function in
strictly ascending order of start, then for each function in that order its rows; every FDE points
at its own rows, which decode and fill exactly their part. -/
theorem C28_layout (dbg dbg' : Bool) (o : Endian) (b : SFrameBuilder)
    (hb : SFrameBuilder.Reachable dbg' b) (out : List U8) (h : b.build dbg o = .ok (.ok out)) :
    (magic o out = 0xDEE2 ∧ version o out = 2 ∧ flags o out = b.options.flags.toNat ∧
      abi o out = b.options.abiArch.toNat ∧ fixedFp o out = fixedNum b.options.fixedFp ∧
      fixedRa o out = fixedNum b.options.fixedRa ∧ auxLen o out = 0 ∧
      numFdes o out = (functions b).length ∧ numFres o out = totalRows (functions b) ∧
      freLen o out = totalSize (functions b) ∧ fdeOff o out = 0 ∧
      freOff o out = 20 * (functions b).length) ∧
    out.length = 28 + 20 * (functions b).length + totalSize (functions b) ∧
    FunctionsAscending (functions b) ∧
    ∀ (i : Nat) f, (functions b)[i]? = some f →
      FdeAt o out (28 + 20 * i) f (totalSize ((functions b).take i)) ∧
      restAfter o (uintAt o out (28 + 20 * i + 16) 1) (rows f).length
        (span out (28 + 20 * (functions b).length + totalSize ((functions b).take i)) (fresSize f))
        = some [] := by
  obtain ⟨rfl, _, hfits⟩ := build_ok hb.inv h
  have hinv := hb.inv
  obtain ⟨_, h1, h2, h3, h4, h5, h6, h7, h8, h9, h10, h11, h12⟩ := image_header o b hfits
  have hcl := chunks_length o (fs := functions b) fun f hf => (hinv.function hf).1
  refine ⟨⟨h1, h2, h3, h4, ?_, ?_, h7, ?_, ?_, ?_, h11, ?_⟩, ?_, functions_ascending hinv, ?_⟩
  · rw [h5]; unfold fixedNum; cases b.options.fixedFp <;> rfl
  · rw [h6]; unfold fixedNum; cases b.options.fixedRa <;> rfl
  · rw [h8, functions_length]
  · rw [h9, rowCount_eq]; rfl
  · rw [h10, values_functions, hcl]
  · rw [h12, functions_length]
  · rw [image_length, values_functions, hcl, functions_length]
  · intro i f hf
    have hfde := image_fde hinv hfits hf
    refine ⟨hfde, ?_⟩
    have hmem : f ∈ functions b := List.mem_of_getElem? hf
    have hfi := (hinv.function hmem).1
    have hinfo : uintAt o (image o b) (28 + 20 * i + 16) 1 = (fdeInfo f (addrTy f)).toNat := by
      rw [hfde.info, startWidth_eq hfi]
      simp only [fdeInfo, FuncDescBuilder.fdetype]
      cases f.repSize <;> cases f.pauthKey <;> cases addrTy f <;>
        simp only [Option.isSome_some, Option.isSome_none] <;> decide
    have hspan : span (image o b)
        (28 + 20 * (functions b).length + totalSize ((functions b).take i)) (fresSize f)
        = chunk o f := by
      have hpre : ((headerOf o b).bytes o ++ (fdesOf o b.fdes.values 0).flatMap (FdeV2.bytes o)).length
          = 28 + 20 * (functions b).length := by
        rw [List.length_append, Header.bytes_length, table_length, values_functions]
      have hcp : chunkPos o (functions b) i = totalSize ((functions b).take i) := by
        rw [chunkPos, chunks_length]
        intro g hg
        exact (hinv.function (List.mem_of_mem_take hg)).1
      unfold span image
      rw [← List.drop_drop, List.drop_left' hpre, values_functions, ← hcp, chunks_drop]
      obtain ⟨hi, hfi'⟩ := List.getElem?_eq_some_iff.1 hf
      rw [List.drop_eq_getElem_cons hi, chunks_cons, hfi', List.take_left' (chunk_length o hfi)]
    rw [hspan, hinfo]
    have := restAfter_encRows o (addrTy f) f.fres.values [] (fdeInfo f (addrTy f)).toNat
      (fdeInfo_width f _).1 (fun r hr => by
        simp only [BMap.values, List.mem_map] at hr
        obtain ⟨e, he, rfl⟩ := hr
        exact addrTy_fits hfi he)
    rw [List.append_nil] at this
    exact this

/-- The sample section, and what the theorem says of its second function. -/
example : Samples.sec.build true .little = .ok (.ok Samples.secOut) ∧
    FdeAt .little Samples.secOut 48 Samples.fn2 7 :=
  ⟨Samples.sec_build true, ((C28_layout true true .little _ (Samples.sec_reachable true) _
    (Samples.sec_build true)).2.2.2 1 _ rfl).1⟩

/-! ### C30 -/

theorem readBack_fixed {o : Endian} (b : SFrameBuilder) :
    (readBack o b).fixedFpOffset = b.options.fixedFp.map (·.val) ∧
    (readBack o b).fixedRaOffset = b.options.fixedRa.map (·.val) := by
  unfold SFrame.fixedFpOffset SFrame.fixedRaOffset readBack
  constructor
  · cases b.options.fixedFp with
    | none => rfl
    | some x => simp [x.2]
  · cases b.options.fixedRa with
    | none => rfl
    | some x => simp [x.2]

/-- **C30.**  Loading what `build` emitted gives back the section: header and, in order of start,
the functions. -/
theorem C30_round_trip (dbg dbg' : Bool) (o : Endian) (b : SFrameBuilder)
    (hb : SFrameBuilder.Reachable dbg' b) (out : List U8) (h : b.build dbg o = .ok (.ok out)) :
    ∃ s es, SFrame.load o out = .ok (.ok s) ∧ s.iter.collect = .ok es ∧
      s.version = 2 ∧ s.flags = b.options.flags ∧ s.abi = b.options.abiArch ∧
      s.fixedFpOffset = b.options.fixedFp.map (·.val) ∧
      s.fixedRaOffset = b.options.fixedRa.map (·.val) ∧
      s.aux = [] ∧ s.numFdes.toNat = (functions b).length ∧
      s.numFres.toNat = totalRows (functions b) ∧
      es.length = (functions b).length ∧ FunctionsAscending (functions b) ∧
      ∀ (i : Nat) f e, (functions b)[i]? = some f → es[i]? = some e →
        e.startAddress = f.startAddress ∧ e.size = f.size ∧
        e.fdetype = (if f.repSize.isSome then .pcMask else .pcInc) ∧
        e.repBlockSize = some (f.repSize.getD 0) ∧ e.pauthKey = f.pauthKey ∧
        e.fde.numFres.toNat = (rows f).length := by
  obtain ⟨rfl, _, hfits⟩ := build_ok hb.inv h
  obtain ⟨es, hes, hlen, hget⟩ := readBack_entries o b hfits
  obtain ⟨h1, h2⟩ := readBack_fixed (o := o) b
  refine ⟨readBack o b, es, load_image o b hfits, hes, rfl, rfl, rfl, h1, h2, rfl, ?_, ?_,
    by rw [hlen, functions_length], functions_ascending hb.inv, ?_⟩
  · have := hfits.1
    rw [functions_length]
    simp only [readBack, BitVec.toNat_ofNat]; omega
  · have := hfits.2.1
    simp only [readBack, BitVec.toNat_ofNat, ← rowCount_eq, ← values_functions]; omega
  · intro i f e hf he
    obtain ⟨rest, hr⟩ := hget i f hf
    rw [he] at hr
    cases hr
    have hrc : f.fres.length < 2 ^ 32 := by
      have := length_le_rowCount (List.mem_of_getElem? hf)
      have := hfits.2.1
      rw [values_functions] at this
      omega
    refine ⟨rfl, rfl, ?_, rfl, ?_, ?_⟩
    · simp only [FuncDescEntry.fdetype, Fde.fdetype, fdeOf, fdeInfo, FuncDescBuilder.fdetype]
      cases f.repSize <;> cases f.pauthKey <;> cases addrTy f <;>
        simp only [Option.isSome_some, Option.isSome_none] <;> decide
    · simp only [FuncDescEntry.pauthKey, Fde.info, fdeOf, fdeInfo, FuncDescBuilder.fdetype]
      cases f.repSize <;> cases f.pauthKey <;> cases addrTy f <;> simp only <;> decide
    · simp only [rows, List.length_map, Fde.numFres, fdeOf, BitVec.toNat_ofNat]
      omega

/-- The PcMask function of the sample section. -/
example : ∃ s e, SFrame.load .little Samples.secOut = .ok (.ok s) ∧ s.iter.next.1 = some e ∧
    e.startAddress = -0x40 ∧ e.fdetype = .pcMask ∧ e.repBlockSize = some 0x10 ∧ e.pauthKey = .B := by
  refine ⟨_, _, rfl, rfl, ?_⟩
  decide +kernel

/-! ### C32 -/

/-- **C32 is false of the code**: for CFA offset -128 and RA offset 128 the width is one byte. -/
theorem C32_width_too_small :
    ∃ (r : FrameRowBuilder) (info : U8), rowInfo r = .ok info ∧ offsetWidth info.toNat = some 1 ∧
      128 ∈ values r ∧ ¬ FitsIn 1 128 :=
  ⟨{ Samples.row8 with offsets := some { cfa := -128, ra := some 128, fp := none } }, 0x05, by
    decide +kernel⟩

/-- **C32**, what holds: the width that the info byte of a row announces is the one its offsets are
written with, and a value survives writing and reading exactly if it fits in it; all of them fit
exactly if there is no tie between `-0x80` (or `-0x8000`), coming first, and its positive
counterpart; and the width is never larger than needed.  Missing: the tie. -/
theorem C32_offset_width_partial (r : FrameRowBuilder) :
    (∃ info, rowInfo r = .ok info ∧ offsetWidth info.toNat = some (rowWidth r)) ∧
    (∀ o, ∀ x ∈ rowValues r, (offsetBytes o (rowOffsetType r) x).length = rowWidth r ∧
      (sintAt o (offsetBytes o (rowOffsetType r) x) 0 (rowWidth r) = x.toInt ↔
        FitsIn (rowWidth r) x.toInt)) ∧
    ((∀ v ∈ values r, FitsIn (rowWidth r) v) ↔ ¬ WidthTie (values r)) ∧
    ∀ n, (n = 1 ∨ n = 2) → (∀ v ∈ values r, FitsIn n v) → rowWidth r ≤ n := by
  refine ⟨⟨_, rowInfo_eq r, ?_⟩, fun o x _ => ⟨?_, ?_⟩, widthFor_fits _ (values_fit4 r), ?_⟩
  · rw [rowWidth_eq]; exact (infoByte_parts r).2.1
  · rw [rowWidth_eq]; exact offsetBytes_length o _ x
  · rw [rowWidth_eq]
    have := offsetBytes_read o (rowOffsetType r) x []
    rw [List.append_nil] at this
    rw [this, truncTo_iff]
  · intro n hn hv
    obtain ⟨_, h2, _⟩ := firstLargest_spec (values r)
    have hf : FitsIn n (firstLargest (values r)) := by
      rcases h2 with h2 | h2
      · rw [h2]; rcases hn with rfl | rfl <;> decide
      · exact hv _ h2
    unfold rowWidth
    rcases hn with rfl | rfl
    · rw [if_pos hf]; omega
    · rw [if_pos hf]; split <;> omega

/-- A row without tie needs two bytes; one with tie gets one. -/
example : rowWidth { Samples.row8 with offsets := some ⟨128, some (-128), none⟩ } = 2 ∧
    rowWidth { Samples.row8 with offsets := some ⟨-128, some 128, none⟩ } = 1 ∧
    WidthTie [-128, 128] ∧ ¬ WidthTie [128, -128] := by
  refine ⟨by decide +kernel, by decide +kernel, ⟨0x80, .inl rfl, by decide, by decide, by decide⟩, ?_⟩
  rintro ⟨m, rfl | rfl, _, h, h'⟩ <;> revert h h' <;> decide

/-! ### C31 -/

namespace Samples

/-- A function at 0 with one row. -/
def oneFn (size : U32) (r : FrameRowBuilder) : FuncDescBuilder :=
  { FuncDescBuilder.new SFrameOptions.new 0 size with fres := [(r.startAddress, r)] }

/-- A section with this function only. -/
def one (size : U32) (r : FrameRowBuilder) : SFrameBuilder :=
  { options := SFrameOptions.new, fdes := [(0, oneFn size r)] }

theorem one_reachable (dbg : Bool) (size : U32) {r : FrameRowBuilder}
    (h : (FuncDescBuilder.new SFrameOptions.new 0 16).row r = .ok (oneFn 16 r)) :
    SFrameBuilder.Reachable dbg (one size r) :=
  .fde (f := oneFn size r) (.new SFrameOptions.new)
    (.call (.size size) (.call (b' := oneFn 16 r) (.row r) (.new SFrameOptions.new 0 16)
      (by simp only [FuncDescBuilder.call, h])) rfl) rfl

end Samples

/-- **C31 is false of the code**, first reason: a row with CFA offset -128 and RA offset 128 is read
back with RA offset -128. -/
theorem C31_tie_misread (dbg : Bool) (o : Endian) :
    ∃ b f r out q, SFrameBuilder.Reachable dbg b ∧ functions b = [f] ∧ rows f = [r] ∧
      r.offsets = some ⟨-128, some 128, none⟩ ∧
      b.build dbg o = .ok (.ok out) ∧ readAll o out = .ok (.ok [[.ok q]]) ∧ q.ra = .ok (-128) := by
  let r : FrameRowBuilder := ⟨0, some ⟨-128, some 128, none⟩, false, .sp⟩
  refine ⟨Samples.one 16 r, _, r, image o (Samples.one 16 r),
    ⟨0, .sp, false, .ok (-128), .ok (-128), .error .missingFreOffset⟩,
    Samples.one_reachable dbg 16 (by decide +kernel), rfl, rfl, rfl, ?_, ?_, rfl⟩
  · cases dbg <;> cases o <;> decide +kernel
  · cases o <;> decide +kernel

/-- **C31 is false of the code**, second reason: without a fixed RA offset, a row with CFA and FP
offsets only is read back with the FP offset as RA offset, and no FP offset. -/
theorem C31_missing_ra_misread (dbg : Bool) (o : Endian) :
    ∃ b f r out q, SFrameBuilder.Reachable dbg b ∧ functions b = [f] ∧ rows f = [r] ∧
      r.offsets = some ⟨16, none, some (-16)⟩ ∧
      b.build dbg o = .ok (.ok out) ∧ readAll o out = .ok (.ok [[.ok q]]) ∧
      q.ra = .ok (-16) ∧ q.fp = .error .missingFreOffset := by
  let r : FrameRowBuilder := ⟨0, some ⟨16, none, some (-16)⟩, false, .sp⟩
  refine ⟨Samples.one 16 r, _, r, image o (Samples.one 16 r),
    ⟨0, .sp, false, .ok 16, .ok (-16), .error .missingFreOffset⟩,
    Samples.one_reachable dbg 16 (by decide +kernel), rfl, rfl, rfl, ?_, ?_, rfl, rfl⟩
  · cases dbg <;> cases o <;> decide +kernel
  · cases o <;> decide +kernel

/-- **C31 is false of the code**, third reason: a function that was made smaller after its rows were
added is built, and reading its rows panics. -/
theorem C31_shrunk_panics (dbg : Bool) (o : Endian) :
    ∃ b f r out, SFrameBuilder.Reachable dbg b ∧ functions b = [f] ∧ rows f = [r] ∧
      r.startAddress = 8 ∧ f.size = 4 ∧
      b.build dbg o = .ok (.ok out) ∧ readAll o out = .panic .assertion := by
  let r : FrameRowBuilder := ⟨8, some ⟨16, none, none⟩, false, .sp⟩
  refine ⟨Samples.one 4 r, _, r, image o (Samples.one 4 r),
    Samples.one_reachable dbg 4 (by decide +kernel), rfl, rfl, rfl, rfl, ?_, ?_⟩
  · cases dbg <;> cases o <;> decide +kernel
  · cases o <;> decide +kernel

theorem orMissing_inj {a b : Option Int} : orMissing a = orMissing b ↔ a = b := by
  cases a <;> cases b <;> simp [orMissing]

theorem toInt8_ne_zero (x : NonZeroI8) : x.val.toInt ≠ 0 := by
  intro h
  rw [← BitVec.toInt_zero (w := 8), BitVec.toInt_inj] at h
  exact x.2 h

theorem sameRow_iff {o : Endian} {b : SFrameBuilder} {q : FrameRowEntry o} {r : FrameRowBuilder}
    (hd : FixedDropped b.options r) (hv : q.view = rowView r) :
    SameRow (readBack o b) b.options q r ↔ ¬ WidthTie (values r) ∧
      ∀ x, r.offsets = some x → b.options.fixedRa = none → x.fp.isSome → x.ra.isSome := by
  obtain ⟨a1, a2, a3⟩ := C21_offset_accessors q (readBack o b)
  have f1 : (readBack o b).fixedRa.toInt = fixedNum b.options.fixedRa := by
    simp only [readBack, fixedNum]; cases b.options.fixedRa <;> rfl
  have f2 : (readBack o b).fixedFp.toInt = fixedNum b.options.fixedFp := by
    simp only [readBack, fixedNum]; cases b.options.fixedFp <;> rfl
  rw [hv, f1] at a2
  rw [hv, f1, f2] at a3
  rw [hv] at a1
  have hst : q.startAddressOffset = r.startAddress := by
    have := congrArg FreView.start hv
    exact BitVec.eq_of_toNat_eq this
  have hbase : q.baseReg = r.baseReg := congrArg FreView.base hv
  have hmang : q.mangled = r.mangled := congrArg FreView.mangled hv
  rw [← truncTo_all]
  have hiff : SameRow (readBack o b) b.options q r ↔
      (q.cfaOffset.map BitVec.toInt = orMissing (r.offsets.map fun x => x.cfa.toInt) ∧
       (q.raOffset (readBack o b)).map BitVec.toInt = orMissing (match b.options.fixedRa with
          | some x => some x.val.toInt
          | none => r.offsets.bind fun x => x.ra.map BitVec.toInt) ∧
       (q.fpOffset (readBack o b)).map BitVec.toInt = orMissing (match b.options.fixedFp with
          | some x => some x.val.toInt
          | none => r.offsets.bind fun x => x.fp.map BitVec.toInt)) :=
    ⟨fun h => ⟨h.cfa, h.ra, h.fp⟩, fun h => ⟨hst, hbase, hmang, h.1, h.2.1, h.2.2⟩⟩
  rw [hiff, a1, a2, a3, orMissing_inj, orMissing_inj, orMissing_inj]
  unfold rowView FixedDropped at *
  generalize rowOffsetType r = t
  cases hra : b.options.fixedRa with
  | none =>
    cases hfp : b.options.fixedFp with
    | none =>
      cases ho : r.offsets with
      | none => simp [fixedNum, rowValues, ho]
      | some x =>
        obtain ⟨c, ra, fp⟩ := x
        cases ra <;> cases fp <;> simp [fixedNum, rowValues, ho]
    | some y =>
      have hy := toInt8_ne_zero y
      cases ho : r.offsets with
      | none => simp [fixedNum, rowValues, ho, hy]
      | some x =>
        obtain ⟨c, ra, fp⟩ := x
        have := (hd _ ho).2 (by simp [hfp])
        simp only at this
        subst this
        cases ra <;> simp [fixedNum, rowValues, ho, hy]
  | some z =>
    have hz := toInt8_ne_zero z
    cases hfp : b.options.fixedFp with
    | none =>
      cases ho : r.offsets with
      | none => simp [fixedNum, rowValues, ho, hz]
      | some x =>
        obtain ⟨c, ra, fp⟩ := x
        have := (hd _ ho).1 (by simp [hra])
        simp only at this
        subst this
        cases fp <;> simp [fixedNum, rowValues, ho, hz]
    | some y =>
      have hy := toInt8_ne_zero y
      cases ho : r.offsets with
      | none => simp [fixedNum, rowValues, ho, hy, hz]
      | some x =>
        obtain ⟨c, ra, fp⟩ := x
        have h1 := (hd _ ho).1 (by simp [hra])
        have h2 := (hd _ ho).2 (by simp [hfp])
        simp only at h1 h2
        subst h1 h2
        simp [fixedNum, rowValues, ho, hy, hz]

/-- What an entry of a built section decodes to. -/
theorem built_decodes {o : Endian} {b : SFrameBuilder} (hb : BuilderInv b) (hfits : Fits o b)
    {i : Nat} {f : FuncDescBuilder} {e : FuncDescEntry o} (hf : (functions b)[i]? = some f)
    {rest : List U8} (hr : e = ⟨.v2 (fdeOf f (chunkPos o b.fdes.values i)), chunk o f ++ rest⟩) :
    decodeFres o e.fde.info.toNat e.fde.numFres.toNat e.fres
      = (rows f).map fun r => .ok (rowView r) := by
  have hmem := List.mem_of_getElem? hf
  obtain ⟨hfi, hopt⟩ := hb.function hmem
  have hrc : f.fres.length < 2 ^ 32 := by
    have := length_le_rowCount hmem
    have := hfits.2.1
    rw [values_functions] at this
    omega
  cases hr
  have hn : (fdeOf f (chunkPos o b.fdes.values i)).numFres.toNat = f.fres.values.length := by
    simp only [fdeOf, BitVec.toNat_ofNat, BMap.values, List.length_map]; omega
  simp only [Fde.info, Fde.numFres, hn]
  exact decodeFres_encRows o (addrTy f) f.fres.values rest _ (fdeInfo_width f _).1 fun r hr => by
    simp only [BMap.values, List.mem_map] at hr
    obtain ⟨e, he, rfl⟩ := hr
    exact addrTy_fits hfi he

/-- **C31**, what holds: reading the rows of a function of a built section gives back exactly the
rows of the builder if, and only if, they are storable: each starts inside the function, has no
width tie, and has no FP offset without RA offset where the section has no fixed RA offset.
Missing: the other rows, which are misread. -/
theorem C31_rows_partial (dbg dbg' : Bool) (o : Endian) (b : SFrameBuilder)
    (hb : SFrameBuilder.Reachable dbg' b) (out : List U8) (h : b.build dbg o = .ok (.ok out)) :
    ∃ s es, SFrame.load o out = .ok (.ok s) ∧ s.iter.collect = .ok es ∧
      es.length = (functions b).length ∧
      ∀ (i : Nat) f e, (functions b)[i]? = some f → es[i]? = some e →
        (RowsRead s b.options f e ↔ Storable f) := by
  obtain ⟨rfl, _, hfits⟩ := build_ok hb.inv h
  obtain ⟨es, hes, hlen, hget⟩ := readBack_entries o b hfits
  refine ⟨readBack o b, es, load_image o b hfits, hes, by rw [hlen, functions_length], ?_⟩
  intro i f e hf he
  obtain ⟨rest, hr⟩ := hget i f hf
  rw [he] at hr
  have hmem := List.mem_of_getElem? hf
  obtain ⟨hfi, hopt⟩ := hb.inv.function hmem
  have hrc : f.fres.length < 2 ^ 32 := by
    have := length_le_rowCount hmem
    have := hfits.2.1
    rw [values_functions] at this
    omega
  have hdec := built_decodes (o := o) hb.inv hfits hf (Option.some.inj hr)
  have hsize : e.size.toNat = f.size.toNat := by cases hr; rfl
  have hdrop : ∀ r ∈ rows f, FixedDropped b.options r := by
    intro r hr
    simp only [rows, List.mem_map] at hr
    obtain ⟨e, he, rfl⟩ := hr
    rw [← hopt]; exact hfi.dropped e he
  -- what is read when all rows start inside
  have hread : (∀ r ∈ rows f, r.startAddress.toNat < f.size.toNat) →
      ∃ rs : List (FrameRowEntry o), e.iter.collect = .ok (rs.map .ok) ∧
        rs.map FrameRowEntry.view = (rows f).map rowView := by
    intro hin
    obtain ⟨rs, h1, h2, _⟩ := C12_rows_decode e (by
      intro v hv
      rw [hdec, List.mem_map] at hv
      obtain ⟨r, hr, hrv⟩ := hv
      cases hrv
      rw [hsize]
      exact hin r hr)
    rw [hdec] at h2
    have : ∀ (rs : List (Except ReadError (FrameRowEntry o))) (l : List FrameRowBuilder),
        rs.map (·.map FrameRowEntry.view) = l.map (fun r => .ok (rowView r)) →
        ∃ qs : List (FrameRowEntry o), rs = qs.map .ok ∧ qs.map FrameRowEntry.view = l.map rowView := by
      intro rs
      induction rs with
      | nil =>
        intro l hl
        cases l with
        | nil => exact ⟨[], rfl, rfl⟩
        | cons a l => cases hl
      | cons x rs ih =>
        intro l hl
        cases l with
        | nil => cases hl
        | cons a l =>
          simp only [List.map_cons, List.cons.injEq] at hl
          obtain ⟨qs, hq1, hq2⟩ := ih l hl.2
          cases x with
          | error e => cases hl.1
          | ok q =>
            refine ⟨q :: qs, by rw [hq1]; rfl, ?_⟩
            rw [List.map_cons, List.map_cons, hq2]
            congr 1
            exact Except.ok.inj hl.1
    obtain ⟨qs, hq1, hq2⟩ := this rs _ h2
    exact ⟨qs, by rw [h1, hq1], hq2⟩
  have hviews : ∀ {rs : List (FrameRowEntry o)}, rs.map FrameRowEntry.view = (rows f).map rowView →
      ∀ (j : Nat) r q, (rows f)[j]? = some r → rs[j]? = some q → q.view = rowView r := by
    intro rs hrs j r q h1 h2
    have := congrArg (fun l => l[j]?) hrs
    simp only [List.getElem?_map, h1, h2, Option.map_some, Option.some.injEq] at this
    exact this
  constructor
  · rintro ⟨rs, h1, h2, h3⟩
    have hin : ∀ r ∈ rows f, r.startAddress.toNat < f.size.toNat := by
      intro r hr
      apply Classical.byContradiction
      intro hn
      have := (C11_fre_panics_iff_partial e).1.2 ⟨rowView r, by
        rw [hdec]; exact List.mem_map.2 ⟨r, hr, rfl⟩, by rw [hsize]; exact hn⟩
      obtain ⟨p, hp⟩ := this
      rw [h1] at hp
      cases hp
    obtain ⟨qs, hq1, hq2⟩ := hread hin
    have hqr : rs = qs := by
      rw [h1] at hq1
      have := Rust.ok.inj hq1
      exact List.map_inj_right (fun _ _ h => Except.ok.inj h) |>.1 this
    subst hqr
    intro r hr
    refine ⟨hin r hr, ?_⟩
    obtain ⟨j, hj⟩ := List.mem_iff_getElem?.1 hr
    obtain ⟨hjl, _⟩ := List.getElem?_eq_some_iff.1 hj
    have hq : rs[j]? = some rs[j] := List.getElem?_eq_getElem (by omega)
    have := (sameRow_iff (hdrop r hr) (hviews hq2 j r _ hj hq)).1 (h3 j r _ hj hq)
    rw [hopt]
    exact this
  · intro hst
    obtain ⟨qs, hq1, hq2⟩ := hread fun r hr => (hst r hr).1
    refine ⟨qs, hq1, by simpa using congrArg List.length hq2, ?_⟩
    intro j r q hj hq
    have hr := List.mem_of_getElem? hj
    rw [sameRow_iff (hdrop r hr) (hviews hq2 j r q hj hq), ← hopt]
    exact (hst r hr).2

/-- The rows of the sample section are storable and are read back. -/
example : (∀ f ∈ functions Samples.sec, Storable f) ∧
    readAll .little Samples.secOut = .ok (.ok [
      [.ok ⟨0, .sp, false, .ok 8, .ok (-8), .error .missingFreOffset⟩,
       .ok ⟨4, .sp, false, .ok 16, .ok (-8), .ok (-16)⟩],
      [.ok ⟨0, .sp, false, .ok 8, .ok (-8), .error .missingFreOffset⟩,
       .ok ⟨4, .sp, false, .ok 16, .ok (-8), .ok (-16)⟩]]) := by
  refine ⟨?_, by decide +kernel⟩
  intro f hf r hr
  have h : ∀ f ∈ functions Samples.sec, ∀ r ∈ rows f, r.startAddress.toNat < f.size.toNat ∧
      (0x80 ∉ values r ∧ 0x8000 ∉ values r) ∧ f.options.fixedRa ≠ none := by decide +kernel
  obtain ⟨h1, h2, h3⟩ := h f hf r hr
  refine ⟨h1, ?_, fun _ _ h => absurd h h3⟩
  rintro ⟨m, rfl | rfl, _, hm, _⟩
  · exact h2.1 hm
  · exact h2.2 hm

/-! ### C36 -/

/-- **C36.**  What `build` emits has the sorted flag, and the functions of its table are strictly
ascending and disjoint. -/
theorem C36_sorted (dbg dbg' : Bool) (o : Endian) (b : SFrameBuilder)
    (hb : SFrameBuilder.Reachable dbg' b) (ho : b.options.Reachable) (out : List U8)
    (h : b.build dbg o = .ok (.ok out)) :
    flags o out % 2 = 1 ∧
    ∀ i j, i < j → j < numFdes o out →
      sintAt o out (28 + 20 * i) 4 < sintAt o out (28 + 20 * j) 4 ∧
      sintAt o out (28 + 20 * i) 4 + uintAt o out (28 + 20 * i + 4) 4
        ≤ sintAt o out (28 + 20 * j) 4 := by
  obtain ⟨⟨_, _, h3, _, _, _, _, h8, _⟩, _, hasc, hfde⟩ := C28_layout dbg dbg' o b hb out h
  obtain ⟨_, hno, _⟩ := build_ok hb.inv h
  refine ⟨by rw [h3]; rcases C37_setters.2.2.2.2 _ ho with h | h <;> rw [h] <;> rfl, fun i j hij hj => ?_⟩
  rw [h8] at hj
  have hi : i < (functions b).length := by omega
  have hgi := List.getElem?_eq_getElem hi
  have hgj := List.getElem?_eq_getElem hj
  obtain ⟨fi, _⟩ := hfde i _ hgi
  obtain ⟨fj, _⟩ := hfde j _ hgj
  rw [fi.start, fj.start, fi.size]
  have hlt := List.pairwise_iff_getElem.1 hasc i j hi hj hij
  refine ⟨hlt, ?_⟩
  apply Int.not_lt.1
  intro hin
  exact hno ⟨_, List.getElem_mem hi, _, List.getElem_mem hj, hlt, hin⟩

/-- The flag and the table of the sample section. -/
example : Samples.sec.options.Reachable ∧ flags .little Samples.secOut % 2 = 1 ∧
    numFdes .little Samples.secOut = 2 ∧
    sintAt .little Samples.secOut 28 4 = -0x40 ∧ sintAt .little Samples.secOut 48 4 = 0x1000 :=
  ⟨.call (.fixedRa (some (-8))) (.call (.abi 3) .new), by decide +kernel⟩

/-! ### C04 -/

/-- **C04.**  What `build` emits in one byte order is refused in the other one. -/
theorem C04_wrong_endian (dbg dbg' : Bool) (o o' : Endian) (ho : o ≠ o') (b : SFrameBuilder)
    (hb : SFrameBuilder.Reachable dbg' b) (out : List U8) (h : b.build dbg o = .ok (.ok out)) :
    SFrame.load o' out = .ok (.error .incorrectEndian) := by
  obtain ⟨rfl, _, _⟩ := build_ok hb.inv h
  have hlen := image_length o b
  rw [C02_load_error, loadError, if_neg (by omega), if_pos]
  unfold magic
  rw [← readU16_toNat o' (by omega)]
  have : ∃ rest, image o b = u16Bytes o MAGIC ++ rest := by
    simp only [image, Header.bytes, Preamble.bytes, headerOf, List.append_assoc]
    exact ⟨_, rfl⟩
  obtain ⟨rest, hr⟩ := this
  rw [hr]
  cases o <;> cases o' <;> first | exact absurd rfl ho | simp [readU16, u16Of, u16Bytes, byteAt, MAGIC]

example : SFrame.load .big Samples.secOut = .ok (.error .incorrectEndian) :=
  C04_wrong_endian true true .little .big (by decide) _ (Samples.sec_reachable true) _
    (Samples.sec_build true)

end Verif
