import Verif.Props.Inject
/-!
# Exactly when two builders give the same bytes: C65
-/

namespace Verif
open Spec SFrameBuilder

namespace Spec

/-- What remains of a row in a section: each offset is reduced to the width of the row. -/
structure Kept where
  start : Nat
  base : BaseReg
  mangled : Bool
  offsets : List Int
  deriving DecidableEq

/-- What remains of row `r`. -/
def kept (r : FrameRowBuilder) : Kept where
  start := r.startAddress.toNat
  base := r.baseReg
  mangled := r.mangled
  offsets := (values r).map fun v => v.bmod (256 ^ rowWidth r)

/-- Two functions of which the same remains. -/
structure SameKept (f g : FuncDescBuilder) : Prop where
  start : f.startAddress = g.startAddress
  size : f.size = g.size
  rep : f.repSize = g.repSize
  key : f.pauthKey = g.pauthKey
  rows : (rows f).map kept = (Spec.rows g).map kept

/-- Two sections of which the same remains. -/
structure SameSection (b c : SFrameBuilder) : Prop where
  options : b.options = c.options
  count : (functions b).length = (functions c).length
  each : ∀ (i : Nat) (f g : FuncDescBuilder), (functions b)[i]? = some f → (functions c)[i]? = some g → SameKept f g

end Spec

theorem truncTo_bmod (t : FreAddrSize) (x : I32) : truncTo t x = x.toInt.bmod (256 ^ t.bytes) := by
  have h1 := BitVec.toInt_eq_toNat_cond x
  have hx := x.isLt
  cases t with
  | u8 =>
    simp only [truncTo, FreAddrSize.bytes]
    have h2 := BitVec.toInt_eq_toNat_cond (x.setWidth 8)
    rw [BitVec.toNat_setWidth] at h2
    unfold Int.bmod
    simp only [show ((256 ^ 1 : Nat) : Int) = 256 from rfl]
    split at h1 <;> split at h2 <;> split <;> omega
  | u16 =>
    simp only [truncTo, FreAddrSize.bytes]
    have h2 := BitVec.toInt_eq_toNat_cond (x.setWidth 16)
    rw [BitVec.toNat_setWidth] at h2
    unfold Int.bmod
    simp only [show ((256 ^ 2 : Nat) : Int) = 65536 from rfl]
    split at h1 <;> split at h2 <;> split <;> omega
  | u32 =>
    simp only [truncTo, FreAddrSize.bytes]
    unfold Int.bmod
    simp only [show ((256 ^ 4 : Nat) : Int) = 4294967296 from rfl]
    split at h1 <;> split <;> omega

theorem kept_offsets (r : FrameRowBuilder) : (kept r).offsets = (rowView r).offsets := by
  simp only [kept, rowView, rowWidth_eq, values_eq, List.map_map]
  exact List.map_congr_left fun x _ => (truncTo_bmod _ x).symm

theorem kept_iff (r r' : FrameRowBuilder) : kept r = kept r' ↔ rowView r = rowView r' := by
  constructor
  · intro h
    have h1 := congrArg Kept.start h
    have h2 := congrArg Kept.base h
    have h3 := congrArg Kept.mangled h
    have h4 := congrArg Kept.offsets h
    rw [kept_offsets, kept_offsets] at h4
    simp only [kept] at h1 h2 h3
    simp only [rowView] at h4 ⊢
    rw [h1, h2, h3, h4]
  · intro h
    have h1 := congrArg FreView.start h
    have h2 := congrArg FreView.base h
    have h3 := congrArg FreView.mangled h
    have h4 := congrArg FreView.offsets h
    rw [← kept_offsets, ← kept_offsets] at h4
    simp only [rowView] at h1 h2 h3
    simp only [kept] at h4 ⊢
    rw [h1, h2, h3, h4]

theorem foldl_largest (t : Int → Int) (vs : List Int) (h : ∀ v ∈ vs, (t v).natAbs = v.natAbs) (a b : Int)
    (hab : b = t a) (ha : (t a).natAbs = a.natAbs) :
    (vs.map t).foldl (fun a v => if a.natAbs < v.natAbs then v else a) b =
      t (vs.foldl (fun a v => if a.natAbs < v.natAbs then v else a) a) := by
  induction vs generalizing a b with
  | nil => exact hab
  | cons v vs ih =>
    subst hab
    have hv := h v (by simp)
    simp only [List.map_cons, List.foldl_cons]
    rw [ha, hv]
    split
    · exact ih (fun w hw => h w (by simp [hw])) v _ rfl hv
    · exact ih (fun w hw => h w (by simp [hw])) a _ rfl ha

/-- The width can be read off what remains. -/
theorem firstLargest_kept (vs : List Int) (h32 : ∀ v ∈ vs, FitsIn 4 v) :
    firstLargest (vs.map fun v => v.bmod (256 ^ widthFor (firstLargest vs))) = firstLargest vs := by
  obtain ⟨h1, h2, _⟩ := firstLargest_spec vs
  have hm4 : FitsIn 4 (firstLargest vs) := by
    rcases h2 with h2 | h2
    · rw [h2]; decide
    · exact h32 _ h2
  have hfit : FitsIn (widthFor (firstLargest vs)) (firstLargest vs) := by
    unfold widthFor
    split
    · assumption
    split
    · assumption
    · exact hm4
  have hw : widthFor (firstLargest vs) = 1 ∨ widthFor (firstLargest vs) = 2 ∨ widthFor (firstLargest vs) = 4 := by
    unfold widthFor
    split
    · exact .inl rfl
    split
    · exact .inr (.inl rfl)
    · exact .inr (.inr rfl)
  have hzero : ∀ n : Nat, 0 < n → (0 : Int).bmod n = 0 := fun n hn => by simp
  have key : ∀ v ∈ vs, (v.bmod (256 ^ widthFor (firstLargest vs))).natAbs = v.natAbs := by
    intro v hv
    have hle := h1 v hv
    rcases hw with hw | hw | hw <;> rw [hw] at hfit ⊢
    · rw [fitsIn_one] at hfit
      unfold Int.bmod
      simp only [show ((256 ^ 1 : Nat) : Int) = 256 from rfl]
      split <;> omega
    · rw [fitsIn_two] at hfit
      unfold Int.bmod
      simp only [show ((256 ^ 2 : Nat) : Int) = 65536 from rfl]
      split <;> omega
    · have := h32 v hv
      rw [fitsIn_four] at this
      unfold Int.bmod
      simp only [show ((256 ^ 4 : Nat) : Int) = 4294967296 from rfl]
      split <;> omega
  have hs : (firstLargest vs).bmod (256 ^ widthFor (firstLargest vs)) = firstLargest vs := by
    rcases hw with hw | hw | hw <;> rw [hw] at hfit ⊢
    · rw [fitsIn_one] at hfit
      unfold Int.bmod
      simp only [show ((256 ^ 1 : Nat) : Int) = 256 from rfl]
      split <;> omega
    · rw [fitsIn_two] at hfit
      unfold Int.bmod
      simp only [show ((256 ^ 2 : Nat) : Int) = 65536 from rfl]
      split <;> omega
    · rw [fitsIn_four] at hfit
      unfold Int.bmod
      simp only [show ((256 ^ 4 : Nat) : Int) = 4294967296 from rfl]
      split <;> omega
  have := foldl_largest (fun v => v.bmod (256 ^ widthFor (firstLargest vs))) vs key 0 0 (by simp) (by simp)
  unfold firstLargest at this hs ⊢
  rw [this]
  exact hs

theorem width_of_view {r r' : FrameRowBuilder} (h : rowView r = rowView r') :
    rowOffsetType r = rowOffsetType r' := by
  have hk := congrArg Kept.offsets ((kept_iff r r').2 h)
  have e := firstLargest_kept (values r) (values_fit4 r)
  have e' := firstLargest_kept (values r') (values_fit4 r')
  simp only [kept, rowWidth_widthFor] at hk
  rw [hk, e'] at e
  have hw : rowWidth r = rowWidth r' := by rw [rowWidth_widthFor, rowWidth_widthFor, e]
  rw [rowWidth_eq, rowWidth_eq] at hw
  revert hw
  cases rowOffsetType r <;> cases rowOffsetType r' <;> simp [FreAddrSize.bytes]

theorem offsetBytes_congr (o : Endian) (t : FreAddrSize) {x y : I32} (h : truncTo t x = truncTo t y) :
    offsetBytes o t x = offsetBytes o t y := by
  cases t with
  | u8 => simp only [truncTo] at h; simp only [offsetBytes, BitVec.eq_of_toInt_eq h]
  | u16 => simp only [truncTo] at h; simp only [offsetBytes, BitVec.eq_of_toInt_eq h]
  | u32 => simp only [truncTo] at h; simp only [offsetBytes, BitVec.eq_of_toInt_eq h]

theorem flatMap_offsetBytes (o : Endian) (t : FreAddrSize) (l l' : List I32)
    (h : l.map (truncTo t) = l'.map (truncTo t)) :
    l.flatMap (offsetBytes o t) = l'.flatMap (offsetBytes o t) := by
  induction l generalizing l' with
  | nil => cases l' with
    | nil => rfl
    | cons b l' => cases h
  | cons a l ih =>
    cases l' with
    | nil => cases h
    | cons b l' =>
      simp only [List.map_cons, List.cons.injEq] at h
      rw [List.flatMap_cons, List.flatMap_cons, offsetBytes_congr o t h.1, ih l' h.2]

theorem encRow_congr (o : Endian) (ty : FreAddrSize) {r r' : FrameRowBuilder} (h : rowView r = rowView r') :
    encRow o ty r = encRow o ty r' := by
  have h1 : r.startAddress = r'.startAddress := BitVec.eq_of_toNat_eq (congrArg FreView.start h)
  have h2 : r.baseReg = r'.baseReg := congrArg FreView.base h
  have h3 : r.mangled = r'.mangled := congrArg FreView.mangled h
  have h4 := congrArg FreView.offsets h
  have h5 := width_of_view h
  simp only [rowView] at h4
  rw [h5] at h4
  have h6 : (rowValues r).length = (rowValues r').length := by
    have := congrArg List.length h4
    simpa using this
  unfold encRow infoByte
  rw [h1, h2, h3, h5, h6, flatMap_offsetBytes o _ _ _ h4]

theorem encRows_congr (o : Endian) (ty : FreAddrSize) {rs rs' : List FrameRowBuilder}
    (h : rs.map rowView = rs'.map rowView) : encRows o ty rs = encRows o ty rs' := by
  induction rs generalizing rs' with
  | nil => cases rs' with
    | nil => rfl
    | cons b l' => cases h
  | cons a l ih =>
    cases rs' with
    | nil => cases h
    | cons b l' =>
      simp only [List.map_cons, List.cons.injEq] at h
      unfold encRows
      rw [List.flatMap_cons, List.flatMap_cons, encRow_congr o ty h.1]
      exact congrArg _ (ih h.2)

theorem rows_values (f : FuncDescBuilder) : f.fres.values = rows f := rfl

theorem addrTy_congr {f g : FuncDescBuilder} (h : (rows f).map rowView = (rows g).map rowView) :
    addrTy f = addrTy g := by
  have hl : ∀ f : FuncDescBuilder, f.fres.last.map (fun e => e.2.startAddress.toNat) =
      ((rows f).map rowView).getLast?.map FreView.start := by
    intro f
    unfold rows
    rw [List.map_map, List.getLast?_map]
    unfold BMap.last
    cases f.fres.getLast? <;> rfl
  have hx := hl f
  rw [h, ← hl g] at hx
  unfold addrTy
  cases h1 : f.fres.last with
  | none =>
    cases h2 : g.fres.last with
    | none => rfl
    | some y => rw [h1, h2] at hx; cases hx
  | some x =>
    cases h2 : g.fres.last with
    | none => rw [h1, h2] at hx; cases hx
    | some y =>
      rw [h1, h2] at hx
      simp only [Option.map_some, Option.some.injEq] at hx
      simp only [hx]

theorem map_kept {l l' : List FrameRowBuilder} : l.map kept = l'.map kept ↔ l.map rowView = l'.map rowView := by
  induction l generalizing l' with
  | nil => cases l' <;> simp
  | cons a l ih => cases l' with
    | nil => simp
    | cons b l' => simp only [List.map_cons, List.cons.injEq, kept_iff, ih]

theorem fdeOf_congr {f g : FuncDescBuilder} (h : SameKept f g) (off : Nat) : fdeOf f off = fdeOf g off := by
  have hr := map_kept.1 h.rows
  have hlen : f.fres.length = g.fres.length := by
    have := congrArg List.length h.rows
    simpa [rows] using this
  unfold fdeOf fdeInfo FuncDescBuilder.fdetype
  rw [h.start, h.size, h.rep, h.key, addrTy_congr hr, hlen]

theorem chunk_congr (o : Endian) {f g : FuncDescBuilder} (h : SameKept f g) : chunk o f = chunk o g := by
  have hr := map_kept.1 h.rows
  unfold chunk
  rw [addrTy_congr hr, rows_values, rows_values]
  exact encRows_congr o _ hr

theorem emit_congr (o : Endian) {fs gs : List FuncDescBuilder} (hlen : fs.length = gs.length)
    (h : ∀ (i : Nat) (f g : FuncDescBuilder), fs[i]? = some f → gs[i]? = some g → SameKept f g) :
    chunks o fs = chunks o gs ∧ rowCount fs = rowCount gs ∧ ∀ off, fdesOf o fs off = fdesOf o gs off := by
  induction fs generalizing gs with
  | nil => cases gs with
    | nil => exact ⟨rfl, rfl, fun _ => rfl⟩
    | cons g gs => cases hlen
  | cons f fs ih =>
    cases gs with
    | nil => cases hlen
    | cons g gs =>
      have h0 := h 0 f g rfl rfl
      obtain ⟨h1, h2, h3⟩ := ih (Nat.succ.inj hlen) fun i a b ha hb => h (i + 1) a b ha hb
      refine ⟨?_, ?_, fun off => ?_⟩
      · rw [chunks_cons, chunks_cons, chunk_congr o h0, h1]
      · rw [rowCount_cons, rowCount_cons, h2]
        have := congrArg List.length h0.rows
        simp only [rows, List.length_map] at this
        rw [this]
      · unfold fdesOf
        rw [fdeOf_congr h0, chunk_congr o h0, h3]

theorem image_congr (o : Endian) {b c : SFrameBuilder} (h : SameSection b c) : image o b = image o c := by
  obtain ⟨h1, h2, h3⟩ := emit_congr o h.count h.each
  have hlen : b.fdes.length = c.fdes.length := by
    have := h.count
    simpa [functions] using this
  change chunks o b.fdes.values = chunks o c.fdes.values at h1
  change rowCount b.fdes.values = rowCount c.fdes.values at h2
  change ∀ off, fdesOf o b.fdes.values off = fdesOf o c.fdes.values off at h3
  unfold image headerOf
  rw [h1, h2, h3, h.options, hlen]

/-- **C65, exactly**: two sections are the same bytes exactly if the options are the same, and of the
functions, pairwise, the start, size, repetition size, key and of the rows the start, base register, signing
flag and the list of offsets reduced to the width of the row are the same.  Missing: that these determine the
builder, which is false, see `C65_not_injective`; `C65_injective_partial` says when they do. -/
theorem C65_same_bytes_partial (dbg dbg' d d' : Bool) (o : Endian) (b b' : SFrameBuilder)
    (hb : SFrameBuilder.Reachable d b) (hb' : SFrameBuilder.Reachable d' b') (out out' : List U8)
    (h : b.build dbg o = .ok (.ok out)) (h' : b'.build dbg' o = .ok (.ok out')) :
    out = out' ↔ SameSection b b' := by
  obtain ⟨rfl, _, hfits⟩ := build_ok hb.inv h
  obtain ⟨rfl, _, hfits'⟩ := build_ok hb'.inv h'
  refine ⟨fun himg => ?_, image_congr o⟩
  have hl := load_image o b hfits
  rw [himg, load_image o b' hfits'] at hl
  have hs : readBack o b' = readBack o b := by injection hl with hl; injection hl
  obtain ⟨es, hes, hlen, hget⟩ := readBack_entries o b hfits
  obtain ⟨es', hes', hlen', hget'⟩ := readBack_entries o b' hfits'
  rw [hs, hes] at hes'
  injection hes' with hes'
  subst hes'
  refine ⟨?_, ?_, ?_⟩
  · have e1 := congrArg (fun s => s.preamble.flags) hs
    have e2 := congrArg SFrame.abiArch hs
    have e3 := fixed_inj (congrArg SFrame.fixedFp hs)
    have e4 := fixed_inj (congrArg SFrame.fixedRa hs)
    simp only [readBack] at e1 e2
    cases ho : b.options; cases ho' : b'.options
    simp_all
  · simp only [functions, List.length_map]; omega
  · intro i f f' hf hf'
    obtain ⟨rest, hr⟩ := hget i f hf
    obtain ⟨rest', hr'⟩ := hget' i f' hf'
    have he := hr.symm.trans hr'
    injection he with he
    have hdec := built_decodes hb.inv hfits hf rfl (rest := rest)
    have hdec' := built_decodes hb'.inv hfits' hf' rfl (rest := rest')
    rw [he, hdec'] at hdec
    have hrows : (rows f).map rowView = (rows f').map rowView := by
      have := congrArg (List.filterMap Except.toOption) hdec
      simpa [List.filterMap_map, Function.comp_def, Except.toOption] using this.symm
    injection he with he
    injection he with he
    have g1 := congrArg FdeV2.startAddress he
    have g2 := congrArg FdeV2.size he
    have g3 := congrArg FdeV2.repSize he
    have g4 := congrArg (fun x => x.info.toNat) he
    simp only [fdeOf] at g1 g2 g3 g4
    obtain ⟨_, i1, i2, _⟩ := fdeInfo_width f (addrTy f)
    obtain ⟨_, i1', i2', _⟩ := fdeInfo_width f' (addrTy f')
    rw [g4] at i1 i2
    have g5 : f.repSize.isSome ↔ f'.repSize.isSome := i1.symm.trans i1'
    have g6 : f.pauthKey = .B ↔ f'.pauthKey = .B := i2.symm.trans i2'
    refine ⟨g1, g2, ?_, ?_, map_kept.2 hrows⟩
    · cases h1 : f.repSize <;> cases h2 : f'.repSize <;> simp_all
    · cases h1 : f.pauthKey <;> cases h2 : f'.pauthKey <;> simp_all

/-- The offsets -128 and 128 of a row of width 1 give what -128 and -128 give, and another row does not. -/
example :
    kept ⟨0, some ⟨-128, some 128, none⟩, false, .sp⟩ = kept ⟨0, some ⟨-128, some (-128), none⟩, false, .sp⟩ ∧
    kept ⟨0, some ⟨128, some (-128), none⟩, false, .sp⟩ ≠ kept ⟨0, some ⟨-128, some (-128), none⟩, false, .sp⟩ ∧
    (kept ⟨0, some ⟨128, some (-128), none⟩, false, .sp⟩).offsets = [128, -128] := by
  decide +kernel

/-- The sections of these two functions are the same bytes. -/
example (dbg : Bool) (o : Endian) : ∃ out,
    (Samples.one 16 ⟨0, some ⟨-128, some 128, none⟩, false, .sp⟩).build dbg o = .ok (.ok out) ∧
    (Samples.one 16 ⟨0, some ⟨-128, some (-128), none⟩, false, .sp⟩).build dbg o = .ok (.ok out) := by
  have h1 : (Samples.one 16 ⟨0, some ⟨-128, some 128, none⟩, false, .sp⟩).build dbg o =
      .ok (.ok (image o (Samples.one 16 ⟨0, some ⟨-128, some (-128), none⟩, false, .sp⟩))) := by
    cases dbg <;> cases o <;> decide +kernel
  have h2 : (Samples.one 16 ⟨0, some ⟨-128, some (-128), none⟩, false, .sp⟩).build dbg o =
      .ok (.ok (image o (Samples.one 16 ⟨0, some ⟨-128, some (-128), none⟩, false, .sp⟩))) := by
    cases dbg <;> cases o <;> decide +kernel
  exact ⟨_, h1, h2⟩

/-- So by the theorem the same remains of both. -/
example (dbg : Bool) :
    SameSection (Samples.one 16 ⟨0, some ⟨-128, some 128, none⟩, false, .sp⟩)
      (Samples.one 16 ⟨0, some ⟨-128, some (-128), none⟩, false, .sp⟩) := by
  have h1 : (Samples.one 16 ⟨0, some ⟨-128, some 128, none⟩, false, .sp⟩).build dbg .little =
      .ok (.ok (image .little (Samples.one 16 ⟨0, some ⟨-128, some (-128), none⟩, false, .sp⟩))) := by
    cases dbg <;> decide +kernel
  have h2 : (Samples.one 16 ⟨0, some ⟨-128, some (-128), none⟩, false, .sp⟩).build dbg .little =
      .ok (.ok (image .little (Samples.one 16 ⟨0, some ⟨-128, some (-128), none⟩, false, .sp⟩))) := by
    cases dbg <;> decide +kernel
  exact (C65_same_bytes_partial dbg dbg dbg dbg .little _ _
    (Samples.one_reachable dbg 16 (by decide +kernel)) (Samples.one_reachable dbg 16 (by decide +kernel)) _ _ h1 h2).1 rfl

end Verif
