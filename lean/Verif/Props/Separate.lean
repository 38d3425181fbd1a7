import Verif.Props.Main1
import Verif.Props.Rewrite
/-!
# C133: what is read of a function does not depend on the others
-/

namespace Verif
namespace Spec
variable {o o' : Endian}

/-- The rows of a function as a program sees them, in order. -/
def rowsShown (s : SFrame o) (e : FuncDescEntry o) : Rust (List (Except ReadError RowReading)) :=
  e.iter.collect.bind fun rs => .ok (rs.map (·.map (readingIn s)))

/-- The row of a function that is found for an address, as a program sees it. -/
def rowShown (s : SFrame o) (e : FuncDescEntry o) (dbg : Bool) (a : I32) :
    Rust (Except ReadError (Option RowReading)) :=
  (e.getFreForAddress dbg a).bind fun r => .ok (r.map (·.map (readingIn s)))

/-- Every method of a function of one section, and of its rows, returns what it returns for a function
of another section. -/
structure ShownAlike (s : SFrame o) (e : FuncDescEntry o) (s' : SFrame o') (e' : FuncDescEntry o') :
    Prop where
  start : e'.startAddress = e.startAddress
  size : e'.size = e.size
  fdetype : e'.fdetype = e.fdetype
  pauthKey : e'.pauthKey = e.pauthKey
  repBlockSize : e'.repBlockSize = e.repBlockSize
  contains : ∀ dbg a, e'.contains dbg a = e.contains dbg a
  rows : rowsShown s' e' = rowsShown s e
  hint : e'.iter.sizeHint = e.iter.sizeHint
  row : ∀ dbg a, rowShown s' e' dbg a = rowShown s e dbg a

end Spec
open Spec
variable {o o' : Endian}

/-- What a scan gives, from what the bytes say. -/
def scanViews (q : U32 → Bool) (size : U32) (ra fp : Option I8) :
    List (Except ReadError FreView) → Rust (Except ReadError (Option RowReading))
  | [] => .ok (.ok none)
  | .error e :: _ => .ok (.error e)
  | .ok v :: l =>
    if v.start < size.toNat then
      if q (BitVec.ofNat 32 v.start) then .ok (.ok (some (readingOf ra fp v))) else scanViews q size ra fp l
    else .panic .assertion

theorem scanRows_shown (s : SFrame o) (q : U32 → Bool) (fde : Fde) (n : Nat) (fres : List U8) :
    (scanRows o (fun r => q r.startAddressOffset) fde n fres).bind
        (fun r => .ok (r.map (·.map (readingIn s))))
      = scanViews q fde.size s.fixedRaOffset s.fixedFpOffset (decodeFres o fde.info.toNat n fres) := by
  induction n generalizing fres with
  | zero => rfl
  | succ n ih =>
    have hs := freLoad_spec o fde fres
    unfold scanRows decodeFres
    cases hd : decodeFre o fde.info.toNat fres with
    | error e =>
      rw [hd] at hs
      simp only at hs
      rw [hs]
      rfl
    | ok p =>
      obtain ⟨v, rest⟩ := p
      rw [hd] at hs
      simp only at hs ⊢
      unfold scanViews
      split at hs
      · rename_i hlt
        obtain ⟨r, hr, hv, _⟩ := hs
        have hst : (BitVec.ofNat 32 v.start : U32) = r.startAddressOffset := by
          rw [← hv]
          simp [FrameRowEntry.view]
        rw [hr, if_pos hlt, ← ih rest, hst, ← hv, readingOf_view]
        simp only [Rust.bind_ok]
        split <;> rfl
      · rename_i hlt
        rw [hs, if_neg hlt]
        rfl

/-- A scan of the rows of a function. -/
theorem scan_shown (s : SFrame o) (e : FuncDescEntry o) (q : U32 → Bool) :
    (e.iter.scan fun r => q r.startAddressOffset).bind (fun r => .ok (r.map (·.map (readingIn s))))
      = scanViews q e.size s.fixedRaOffset s.fixedFpOffset
          (decodeFres o e.fde.info.toNat e.fde.numFres.toNat e.fres) := by
  rw [FuncDescEntry.scan_eq]
  exact scanRows_shown s q e.fde _ _

/-- Functions with the same header, but for the place of their rows, and with the same decoded rows. -/
theorem shown_alike {s : SFrame o} {e : FuncDescEntry o} {s' : SFrame o'} {e' : FuncDescEntry o'}
    (hra : s'.fixedRaOffset = s.fixedRaOffset) (hfp : s'.fixedFpOffset = s.fixedFpOffset)
    (h1 : e'.startAddress = e.startAddress) (h2 : e'.size = e.size) (h3 : e'.fdetype = e.fdetype)
    (h4 : e'.pauthKey = e.pauthKey) (h5 : e'.repBlockSize = e.repBlockSize)
    (h6 : e'.fde.numFres = e.fde.numFres)
    (hdec : decodeFres o' e'.fde.info.toNat e'.fde.numFres.toNat e'.fres =
      decodeFres o e.fde.info.toNat e.fde.numFres.toNat e.fres) : ShownAlike s e s' e' where
  start := h1
  size := h2
  fdetype := h3
  pauthKey := h4
  repBlockSize := h5
  contains dbg a := by
    unfold FuncDescEntry.contains
    rw [h1, h2]
  rows := by
    unfold rowsShown
    rw [FuncDescEntry.collect_eq, FuncDescEntry.collect_eq]
    have r1 := readRows_readings s e.fde e.fde.numFres.toNat e.fres
    have r2 := readRows_readings s' e'.fde e'.fde.numFres.toNat e'.fres
    rw [hdec, hra, hfp, show e'.fde.size = e.fde.size from h2] at r2
    exact r2.trans r1.symm
  hint := by
    unfold FrameRowIter.sizeHint
    rw [show e'.iter.fde.numFres = e.iter.fde.numFres from h6]
    rfl
  row dbg a := by
    have hscan : ∀ q : U32 → Bool,
        (e'.iter.scan fun r => q r.startAddressOffset).bind (fun r => .ok (r.map (·.map (readingIn s')))) =
        (e.iter.scan fun r => q r.startAddressOffset).bind (fun r => .ok (r.map (·.map (readingIn s)))) := by
      intro q
      rw [scan_shown, scan_shown, hdec, hra, hfp, h2]
    unfold rowShown FuncDescEntry.getFreForAddress
    rw [h1, h2, h3, h5]
    split
    · rfl
    · cases subI32 dbg a e.startAddress with
      | panic p => rfl
      | diverge => rfl
      | ok rel =>
        simp only [Rust.bind_ok]
        split
        · rfl
        · cases e.fdetype with
          | pcInc => exact hscan fun x => decide (rel.toNat ≥ x.toNat)
          | pcMaskV1 => exact hscan fun x => decide ((rel &&& x).toNat ≥ x.toNat)
          | pcMask =>
            cases e.repBlockSize with
            | none => rfl
            | some k =>
              dsimp only
              split
              · rfl
              · exact hscan fun x => decide (rel.toNat % (k.setWidth 32 : U32).toNat ≥ x.toNat)

/-- **C133.**  Two sections with a function in common, built by any two programs, in any byte orders:
whatever else is in them, everything that can be read of the function and its rows, step by step or by
address, is the same.  (Also if the rows are not read as they were added, see C31.) -/
theorem C133_function (dbg dbg' d d' : Bool) (o o' : Endian) {b b' : SFrameBuilder}
    (hb : SFrameBuilder.Reachable d b) (hb' : SFrameBuilder.Reachable d' b') {out out' : List U8}
    (h : b.build dbg o = .ok (.ok out)) (h' : b'.build dbg' o' = .ok (.ok out'))
    {f : FuncDescBuilder} {i j : Nat} (hf : (functions b)[i]? = some f)
    (hf' : (functions b')[j]? = some f) :
    ∃ s es e s' es' e', SFrame.load o out = .ok (.ok s) ∧ s.iter.collect = .ok es ∧ es[i]? = some e ∧
      SFrame.load o' out' = .ok (.ok s') ∧ s'.iter.collect = .ok es' ∧ es'[j]? = some e' ∧
      ShownAlike s e s' e' := by
  obtain ⟨rfl, _, hfits⟩ := build_ok hb.inv h
  obtain ⟨rfl, _, hfits'⟩ := build_ok hb'.inv h'
  obtain ⟨es, hes, _, hget⟩ := readBack_entries o b hfits
  obtain ⟨es', hes', _, hget'⟩ := readBack_entries o' b' hfits'
  obtain ⟨rest, hr⟩ := hget i f hf
  obtain ⟨rest', hr'⟩ := hget' j f hf'
  have ho := (hb.inv.function (List.mem_of_getElem? hf)).2
  have ho' := (hb'.inv.function (List.mem_of_getElem? hf')).2
  have hopt : b'.options = b.options := by rw [← ho', ho]
  obtain ⟨r1, r2⟩ := readBack_fixed (o := o) b
  obtain ⟨r1', r2'⟩ := readBack_fixed (o := o') b'
  refine ⟨_, es, _, _, es', _, load_image o b hfits, hes, hr, load_image o' b' hfits', hes', hr', ?_⟩
  refine shown_alike (by rw [r2, r2', hopt]) (by rw [r1, r1', hopt]) rfl rfl rfl rfl rfl rfl ?_
  rw [built_decodes hb.inv hfits hf rfl, built_decodes hb'.inv hfits' hf' rfl]

/-- The same, for a function that is somewhere in both. -/
theorem common_function (dbg dbg' d d' : Bool) (o o' : Endian) {b b' : SFrameBuilder}
    (hb : SFrameBuilder.Reachable d b) (hb' : SFrameBuilder.Reachable d' b') {out out' : List U8}
    (h : b.build dbg o = .ok (.ok out)) (h' : b'.build dbg' o' = .ok (.ok out'))
    {f : FuncDescBuilder} (hf : f ∈ functions b) (hf' : f ∈ functions b') :
    ∃ s es e s' es' e', SFrame.load o out = .ok (.ok s) ∧ s.iter.collect = .ok es ∧ e ∈ es ∧
      SFrame.load o' out' = .ok (.ok s') ∧ s'.iter.collect = .ok es' ∧ e' ∈ es' ∧
      e.startAddress = f.startAddress ∧ ShownAlike s e s' e' := by
  obtain ⟨i, hi⟩ := List.getElem?_of_mem hf
  obtain ⟨j, hj⟩ := List.getElem?_of_mem hf'
  obtain ⟨s, es, e, s', es', e', h1, h2, h3, h4, h5, h6, h7⟩ :=
    C133_function dbg dbg' d d' o o' hb hb' h h' hi hj
  refine ⟨s, es, e, s', es', e', h1, h2, List.mem_of_getElem? h3, h4, h5, List.mem_of_getElem? h6, ?_, h7⟩
  obtain ⟨rfl, _, hfits⟩ := build_ok hb.inv h
  obtain ⟨es2, hes, _, hget⟩ := readBack_entries o b hfits
  rw [load_image o b hfits] at h1
  cases h1
  rw [hes] at h2
  cases h2
  obtain ⟨rest, hr⟩ := hget i f hi
  rw [h3] at hr
  cases hr
  rfl

/-- **C133**, from the call frame information on: the functions of two inputs that have one in common
(which none at the same address follows) are converted with the same options.  Whatever else is in
them, everything that can be read of the function in the two sections is the same. -/
theorem C133_converted (dbg dbg' d d' : Bool) (o o' : Endian) (eh eh' : EhFrame) (opts : Options)
    (hend : eh'.bigEndian = eh.bigEndian) {b b' : SFrameBuilder} {out out' : List U8}
    (hc : dwarf2sframe d eh opts = .ok (.ok b)) (hc' : dwarf2sframe d' eh' opts = .ok (.ok b'))
    (h : b.build dbg o = .ok (.ok out)) (h' : b'.build dbg' o' = .ok (.ok out'))
    {fdes fdes' : List DwFde} (hin : inputs eh opts.bases = fdes.map .ok)
    (hin' : inputs eh' opts.bases = fdes'.map .ok) {fde : DwFde} (hl : LastWith fdes fde)
    (hl' : LastWith fdes' fde) :
    ∃ s es e s' es' e', SFrame.load o out = .ok (.ok s) ∧ s.iter.collect = .ok es ∧ e ∈ es ∧
      SFrame.load o' out' = .ok (.ok s') ∧ s'.iter.collect = .ok es' ∧ e' ∈ es' ∧
      e.startAddress = fde.initial.setWidth 32 ∧ ShownAlike s e s' e' := by
  have hr := converted_reachable (dbg' := d) hc
  have hr' := converted_reachable (dbg' := d') hc'
  obtain ⟨l, hi, hcv, rfl⟩ := dwarf2sframe_ok_iff.1 hc
  obtain ⟨l', hi', hcv', rfl⟩ := dwarf2sframe_ok_iff.1 hc'
  have hso : sectionOptions eh' opts = sectionOptions eh opts := by
    unfold sectionOptions chooseAbi
    rw [hend]
  have e1 : l = fdes := (List.map_inj_right fun _ _ h => Except.ok.inj h).1 (hi.symm.trans hin)
  have e2 : l' = fdes' := (List.map_inj_right fun _ _ h => Except.ok.inj h).1 (hi'.symm.trans hin')
  subst e1 e2
  have hf := (mem_functions (so := sectionOptions eh opts) (opts := opts)
    (fun g hg => (hcv g hg).start) _).2 ⟨fde, hl, rfl⟩
  have hf' := (mem_functions (so := sectionOptions eh' opts) (opts := opts)
    (fun g hg => (hcv' g hg).start) _).2 ⟨fde, hl', rfl⟩
  rw [show fnFor (sectionOptions eh' opts) opts fde = fnFor (sectionOptions eh opts) opts fde by
    rw [hso]] at hf'
  have := common_function dbg dbg' d d' o o' hr hr' h h' hf hf'
  rwa [(fnFor_fields _ opts fde).2.1] at this

theorem lastWith_tidy {fdes : List DwFde} {fde : DwFde} (h : LastWith fdes fde) :
    LastWith (fdes.map tidyFde) (tidyFde fde) := by
  obtain ⟨pre, post, rfl, hp⟩ := h
  refine ⟨pre.map tidyFde, post.map tidyFde, by simp, fun g hg => ?_⟩
  obtain ⟨g', hg', rfl⟩ := List.mem_map.1 hg
  exact hp g' hg'

/-- **C133**, the legacy converter. -/
theorem C133_legacy (dbg dbg' d d' : Bool) (o o' : Endian) (eh eh' : EhFrame) (bases : Bases)
    {b b' : SFrameBuilder} {out out' : List U8}
    (hc : legacyConvert d eh bases = .ok (.ok b)) (hc' : legacyConvert d' eh' bases = .ok (.ok b'))
    (h : b.build dbg o = .ok (.ok out)) (h' : b'.build dbg' o' = .ok (.ok out'))
    {fdes fdes' : List DwFde} (hin : inputs eh bases = fdes.map .ok)
    (hin' : inputs eh' bases = fdes'.map .ok) {fde : DwFde} (hl : LastWith fdes fde)
    (hl' : LastWith fdes' fde) :
    ∃ s es e s' es' e', SFrame.load o out = .ok (.ok s) ∧ s.iter.collect = .ok es ∧ e ∈ es ∧
      SFrame.load o' out' = .ok (.ok s') ∧ s'.iter.collect = .ok es' ∧ e' ∈ es' ∧
      e.startAddress = fde.initial.setWidth 32 ∧ ShownAlike s e s' e' := by
  obtain ⟨l, hi, hcv, rfl⟩ := legacyConvert_iff.1 hc
  obtain ⟨l', hi', hcv', rfl⟩ := legacyConvert_iff.1 hc'
  have e1 : l = fdes := (List.map_inj_right fun _ _ h => Except.ok.inj h).1 (hi.symm.trans hin)
  have e2 : l' = fdes' := (List.map_inj_right fun _ _ h => Except.ok.inj h).1 (hi'.symm.trans hin')
  subst e1 e2
  have conv : ∀ l : List DwFde, (∀ fde ∈ l, LegacyConvertible fde) → ∀ g ∈ l.map tidyFde,
      Convertible legacyOptions (legacyLike bases) g := by
    intro l hl g hg
    obtain ⟨fde, hf, rfl⟩ := List.mem_map.1 hg
    exact ((legacyConvertible_iff bases fde).1 (hl fde hf)).1
  have c1 := conv l hcv
  have c2 := conv l' hcv'
  have hf := (mem_functions (so := legacyOptions) (opts := legacyLike bases)
    (fun g hg => (c1 g hg).start) _).2 ⟨tidyFde fde, lastWith_tidy hl, rfl⟩
  have hf' := (mem_functions (so := legacyOptions) (opts := legacyLike bases)
    (fun g hg => (c2 g hg).start) _).2 ⟨tidyFde fde, lastWith_tidy hl', rfl⟩
  have := common_function dbg dbg' d d' o o' (more_reachable rfl (.new _) c1)
    (more_reachable rfl (.new _) c2) h h' hf hf'
  rwa [(fnFor_fields _ _ _).2.1] at this

/-! ### Non-vacuity -/

/-- Another function, of one row. -/
def Samples.earlier : DwFde :=
  { initial := 0x800, len := 0x20, instructions := [],
    rows := .ok [.ok { Samples.dwRow1 with start := 0x800, end_ := 0x820 }] }

/-- The sample function alone, and behind another one in a section of the other byte order, where its
rows lie elsewhere: what is shown of it. -/
example : ∃ b b' : SFrameBuilder, ∃ s : SFrame .little, ∃ s' : SFrame .big, ∃ e e0 e',
    dwarf2sframe true (Samples.ehOf [Samples.dwFde]) Samples.convOpts = .ok (.ok b) ∧
    dwarf2sframe true (Samples.ehOf [Samples.earlier, Samples.dwFde]) Samples.convOpts = .ok (.ok b') ∧
    b.build true .little = .ok (.ok (image .little b)) ∧ b'.build true .big = .ok (.ok (image .big b')) ∧
    SFrame.load .little (image .little b) = .ok (.ok s) ∧ SFrame.load .big (image .big b') = .ok (.ok s') ∧
    s.iter.collect = .ok [e] ∧ s'.iter.collect = .ok [e0, e'] ∧ e'.fde ≠ e.fde ∧
    rowsShown s e = .ok [
      .ok ⟨0, .sp, false, .ok 8, .ok (-8), .error .missingFreOffset⟩,
      .ok ⟨1, .sp, false, .ok 16, .ok (-8), .ok (-16)⟩,
      .ok ⟨0x10, .fp, false, .error .missingFreOffset, .ok (-8), .error .missingFreOffset⟩] ∧
    rowsShown s' e' = rowsShown s e ∧
    rowShown s' e' true 0x1002 = .ok (.ok (some ⟨0, .sp, false, .ok 8, .ok (-8), .error .missingFreOffset⟩)) ∧
    rowShown s' e' true 0x1002 = rowShown s e true 0x1002 := by
  refine ⟨{ options := Samples.opts, fdes := [(0x1000, Samples.convFn)] },
    { options := Samples.opts, fdes := [(0x800, { FuncDescBuilder.new Samples.opts 0x800 0x20 with
        fres := [(0, ⟨0, some ⟨8, none, none⟩, false, .sp⟩)] }), (0x1000, Samples.convFn)] },
    _, _, _, _, _, by decide +kernel, by decide +kernel, by decide +kernel, by decide +kernel, rfl, rfl,
    rfl, rfl, by decide +kernel, by decide +kernel, by decide +kernel, by decide +kernel, by decide +kernel⟩

end Verif
