import Verif.Spec.Rewrite
import Verif.Props.Exact
import Verif.Props.Reader2
/-!
# Rewriting a section reproduces it: C110
-/

namespace Verif
open Spec SFrameBuilder

theorem BMap.insert_last {K V : Type} {ord : K → Int} {k : K} {v : V} {m : BMap K V}
    (h : ∀ e ∈ m, ord e.1 < ord k) : m.insert ord k v = m ++ [(k, v)] := by
  induction m with
  | nil => rfl
  | cons x m ih =>
    obtain ⟨k', v'⟩ := x
    have := h (k', v') (by simp)
    simp only at this
    unfold BMap.insert
    rw [if_neg (by omega), if_neg (by omega), ih fun e he => h e (List.mem_cons_of_mem _ he)]
    rfl

/-! ### The options -/

theorem flags_made {f : U8} (h : f = Flags.FDE_SORTED ∨ f = Flags.FDE_SORTED ||| Flags.FRAME_POINTER) :
    Flags.set Flags.FDE_SORTED Flags.FRAME_POINTER (f &&& Flags.FRAME_POINTER != 0) = f := by
  rcases h with rfl | rfl <;> decide

theorem nonZero_new (x : Option NonZeroI8) : (x.map (·.val)).bind NonZeroI8.new = x := by
  cases x with
  | none => rfl
  | some x => simp [NonZeroI8.new, x.2]

theorem optionsOf_readBack {o : Endian} {b : SFrameBuilder} (h : ApiMade b) :
    optionsOf (readBack o b) = b.options := by
  obtain ⟨h1, h2⟩ := readBack_fixed (o := o) b
  unfold optionsOf SFrameOptions.fixedFpOffset SFrameOptions.fixedRaOffset SFrameOptions.abi
    SFrameOptions.framePointer
  rw [h1, h2, nonZero_new, nonZero_new]
  have : (readBack o b).flags = b.options.flags := rfl
  rw [this]
  simp only [SFrameOptions.new]
  rw [flags_made h.flags]
  rfl

/-! ### Rows -/

/-- The row that is stored for a row that was read. -/
def copied (opts : SFrameOptions) (r : FrameRowBuilder) : FrameRowBuilder :=
  storedRow opts (rowAgain (readingOf (opts.fixedRa.map (·.val)) (opts.fixedFp.map (·.val)) (rowView r)))

theorem ofInt_truncTo (t : FreAddrSize) (x : I32) : (BitVec.ofInt 32 (truncTo t x)).toInt = truncTo t x := by
  rw [BitVec.toInt_ofInt]
  cases t with
  | u8 =>
    simp only [truncTo]
    have h1 := BitVec.le_toInt (x.setWidth 8)
    have h2 := BitVec.toInt_lt (x := x.setWidth 8)
    apply Int.bmod_eq_of_le <;> omega
  | u16 =>
    simp only [truncTo]
    have h1 := BitVec.le_toInt (x.setWidth 16)
    have h2 := BitVec.toInt_lt (x := x.setWidth 16)
    apply Int.bmod_eq_of_le <;> omega
  | u32 =>
    simp only [truncTo]
    have h1 := BitVec.le_toInt x
    have h2 := BitVec.toInt_lt (x := x)
    apply Int.bmod_eq_of_le <;> omega

theorem copied_start (opts : SFrameOptions) (r : FrameRowBuilder) : (copied opts r).startAddress = r.startAddress := by
  unfold copied storedRow rowAgain readingOf
  simp only [FrameRowBuilder.mangledRaP, rowView]
  split <;> simp [FrameRowBuilder.invalid, FrameRowBuilder.new]

theorem copied_mangled (opts : SFrameOptions) (r : FrameRowBuilder) : (copied opts r).mangled = r.mangled := rfl

theorem copied_base (opts : SFrameOptions) {r : FrameRowBuilder} (h : r.offsets = none → r.baseReg = .fp) :
    (copied opts r).baseReg = r.baseReg := by
  unfold copied storedRow rowAgain readingOf
  simp only [FrameRowBuilder.mangledRaP, rowView]
  cases ho : r.offsets with
  | none => simp [rowValues, ho, FrameRowBuilder.invalid, h ho]
  | some x => simp [rowValues, ho, FrameRowBuilder.new]

/-- The offsets are those that were read. -/
theorem copied_values {opts : SFrameOptions} {r : FrameRowBuilder} (hd : FixedDropped opts r) :
    values (copied opts r) = (rowView r).offsets := by
  rw [values_eq]
  have key : ∀ x, (BitVec.ofInt 32 (truncTo (rowOffsetType r) x)).toInt = truncTo (rowOffsetType r) x :=
    ofInt_truncTo _
  unfold copied storedRow rowAgain readingOf
  simp only [FrameRowBuilder.mangledRaP, rowView]
  unfold FixedDropped at hd
  generalize rowOffsetType r = t at key
  cases ho : r.offsets with
  | none => simp [rowValues, ho, FrameRowBuilder.invalid]
  | some x =>
    obtain ⟨c, ra, fp⟩ := x
    have hd := hd _ ho
    simp only at hd
    cases hra : opts.fixedRa <;> cases hfp : opts.fixedFp <;> simp only [hra, hfp] at hd <;>
      cases ra <;> cases fp <;>
      simp_all [rowValues, FrameRowBuilder.new, Except.toOption]

theorem widthFor_bmod (v : Int) (w : Nat) (hw : w = 1 ∨ w = 2 ∨ w = 4) :
    (v.bmod (256 ^ w)).bmod (256 ^ w) = v.bmod (256 ^ w) := by
  rcases hw with rfl | rfl | rfl <;> simp

/-- The same remains of the row. -/
theorem copied_kept {opts : SFrameOptions} {r : FrameRowBuilder} (hd : FixedDropped opts r)
    (h : r.offsets = none → r.baseReg = .fp) : kept (copied opts r) = kept r := by
  have hv := copied_values hd
  rw [← kept_offsets] at hv
  have hw : rowWidth (copied opts r) = rowWidth r := by
    rw [rowWidth_widthFor, rowWidth_widthFor, hv]
    simp only [kept, rowWidth_widthFor]
    rw [firstLargest_kept (values r) (values_fit4 r)]
  have h4 : (kept (copied opts r)).offsets = (kept r).offsets := by
    show (values (copied opts r)).map _ = _
    rw [hv, hw]
    simp only [kept, List.map_map]
    apply List.map_congr_left
    intro v _
    refine widthFor_bmod v (rowWidth r) ?_
    unfold rowWidth
    split
    · exact .inl rfl
    split
    · exact .inr (.inl rfl)
    · exact .inr (.inr rfl)
  simp only [kept] at h4 ⊢
  rw [h4, copied_start, copied_mangled, copied_base opts h]

/-! ### Adding rows -/

/-- The row that is added for a row that was read. -/
def copy (opts : SFrameOptions) (r : FrameRowBuilder) : FrameRowBuilder :=
  rowAgain (readingOf (opts.fixedRa.map (·.val)) (opts.fixedFp.map (·.val)) (rowView r))

theorem copy_start (opts : SFrameOptions) (r : FrameRowBuilder) : (copy opts r).startAddress = r.startAddress :=
  copied_start opts r

theorem copy_allowed (opts : SFrameOptions) (r : FrameRowBuilder) :
    ((copy opts r).offsets.all fun x => fixedAllows opts.fixedRa x.ra) = true ∧
    ((copy opts r).offsets.all fun x => fixedAllows opts.fixedFp x.fp) = true := by
  unfold copy rowAgain readingOf
  simp only [FrameRowBuilder.mangledRaP]
  cases (rowView r).offsets[0]? with
  | none => simp [FrameRowBuilder.invalid]
  | some v =>
    simp only [FrameRowBuilder.new, Option.all_some]
    constructor
    · cases opts.fixedRa with
      | none => simp [fixedAllows]
      | some x => simp [fixedAllows, Except.toOption, BitVec.toInt_signExtend_of_le]
    · cases opts.fixedFp with
      | none => simp [fixedAllows]
      | some x => simp [fixedAllows, Except.toOption, BitVec.toInt_signExtend_of_le]

theorem copyRows_eq (opts : SFrameOptions) (l : List FrameRowBuilder) (f : FuncDescBuilder) (h : FdeInv f)
    (hopt : f.options = opts) (hrep : f.repSize = none) (hasc : RowsAscending l)
    (hbig : ∀ r ∈ l, r.startAddress.toNat < 2 ^ 28) (hin : ∀ r ∈ l, r.startAddress.toNat < f.size.toNat)
    (hlt : ∀ e ∈ f.fres, ∀ r ∈ l, e.2.startAddress.toNat < r.startAddress.toNat) :
    copyRows f (l.map fun r => .ok (readingOf (opts.fixedRa.map (·.val)) (opts.fixedFp.map (·.val)) (rowView r)))
      = .ok { f with fres := f.fres ++ l.map fun r => (r.startAddress, copied opts r) } := by
  induction l generalizing f with
  | nil => simp [copyRows]
  | cons r l ih =>
    have hno : rowError f (copy opts r) = none := by
      rw [rowError_cases, copy_start]
      have h1 := hbig r (by simp)
      have h3 := hin r (by simp)
      obtain ⟨h4, h5⟩ := copy_allowed opts r
      rw [if_neg (by omega), if_neg (by simp [hrep]), if_neg (by omega), if_neg (by simp [hopt, h4]),
        if_neg (by simp [hopt, h5]), if_neg]
      rw [Decidable.not_not]
      simp only [List.all_eq_true, decide_eq_true_eq, rows, List.mem_map]
      rintro x ⟨e, he, rfl⟩ heq
      have := hlt e he r (by simp)
      rw [heq] at this
      omega
    have hrow := row_spec h (copy opts r)
    rw [hno] at hrow
    simp only at hrow
    have hins : f.fres.insert ordU32 (copy opts r).startAddress (storedRow f.options (copy opts r))
        = f.fres ++ [(r.startAddress, copied opts r)] := by
      rw [copy_start, hopt]
      refine BMap.insert_last fun e he => ?_
      have := hlt e he r (by simp)
      rw [h.key e he]
      simp only [ordU32]
      omega
    rw [hins] at hrow
    have hinv := h.row hrow
    simp only [List.map_cons, copyRows]
    change (match f.row (copy opts r) with
      | .error e => Except.error (RewriteError.row e)
      | .ok f => copyRows f _) = _
    rw [hrow]
    simp only
    have hasc' := List.pairwise_cons.1 hasc
    rw [ih _ hinv hopt hrep hasc'.2 (fun x hx => hbig x (by simp [hx])) (fun x hx => hin x (by simp [hx])) ?_]
    · simp
    · intro e he x hx
      simp only [List.mem_append, List.mem_singleton] at he
      rcases he with he | rfl
      · exact hlt e he x (by simp [hx])
      · simp only [copied_start]
        exact hasc'.1 x hx

theorem readings_inside (size : U32) (ra fp : Option I8) (l : List FrameRowBuilder)
    (hin : ∀ r ∈ l, r.startAddress.toNat < size.toNat) :
    readingsOf size ra fp (l.map fun r => .ok (rowView r)) = .ok (l.map fun r => .ok (readingOf ra fp (rowView r))) := by
  induction l with
  | nil => rfl
  | cons r l ih =>
    simp only [List.map_cons, readingsOf]
    rw [if_pos (show (rowView r).start < size.toNat from hin r (by simp)), ih fun x hx => hin x (by simp [hx])]
    rfl

theorem readings_outside (size : U32) (ra fp : Option I8) (l : List FrameRowBuilder)
    (hin : ¬ ∀ r ∈ l, r.startAddress.toNat < size.toNat) :
    readingsOf size ra fp (l.map fun r => .ok (rowView r)) = .panic .assertion := by
  induction l with
  | nil => exact absurd (by simp) hin
  | cons r l ih =>
    simp only [List.map_cons, readingsOf]
    split
    · rename_i h
      rw [ih fun hh => hin fun x hx => ?_]
      · rfl
      · rcases List.mem_cons.1 hx with rfl | hx
        · exact h
        · exact hh x hx
    · rfl

/-! ### Adding functions -/

/-- The function that is added for a function that was read. -/
def copiedFn (f : FuncDescBuilder) : FuncDescBuilder :=
  { f with fres := (rows f).map fun r => (r.startAddress, copied f.options r) }

/-- Entry `e` of section `s` is what the builder emitted for `f`. -/
structure Emitted {o : Endian} (s : SFrame o) (e : FuncDescEntry o) (f : FuncDescBuilder) : Prop where
  start : e.startAddress = f.startAddress
  size : e.size = f.size
  fdetype : e.fdetype = (if f.repSize.isSome then .pcMask else .pcInc)
  rep : e.repBlockSize = some (f.repSize.getD 0)
  key : e.pauthKey = f.pauthKey
  options : optionsOf s = f.options
  inv : FdeInv f
  rows : (e.iter.collect.bind fun rs => .ok (rs.map (·.map (readingIn s)))) =
    readingsOf f.size (f.options.fixedRa.map (·.val)) (f.options.fixedFp.map (·.val))
      ((rows f).map fun r => .ok (rowView r))

theorem copyFunction_eq {o : Endian} {s : SFrame o} {e : FuncDescEntry o} {f : FuncDescBuilder} (h : Emitted s e f)
    (hin : ∀ r ∈ rows f, r.startAddress.toNat < f.size.toNat) :
    copyFunction (optionsOf s) e ((rows f).map fun r =>
      .ok (readingOf (f.options.fixedRa.map (·.val)) (f.options.fixedFp.map (·.val)) (rowView r)))
      = .ok (copiedFn f) := by
  unfold copyFunction
  rw [h.options, h.start, h.size, copyRows_eq f.options (rows f) _ (FuncDescBuilder.Reachable.new _ _ _).inv rfl rfl
    (rows_ascending h.inv) ?_ hin (by simp [FuncDescBuilder.new])]
  · simp only [h.fdetype, h.rep, h.key]
    cases hr : f.repSize with
    | none => simp [FuncDescBuilder.new, FuncDescBuilder.setPauthKey, copiedFn, hr]
    | some x => simp [FuncDescBuilder.new, FuncDescBuilder.setPauthKey, FuncDescBuilder.pcmask, copiedFn, hr]
  · intro r hr
    simp only [rows, List.mem_map] at hr
    obtain ⟨e, he, rfl⟩ := hr
    exact h.inv.small e he

theorem copyFunctions_eq {o : Endian} {s : SFrame o} (ps : List (FuncDescEntry o × FuncDescBuilder))
    (b : SFrameBuilder) (hp : ∀ p ∈ ps, Emitted s p.1 p.2) (hopt : b.options = optionsOf s)
    (hin : ∀ p ∈ ps, ∀ r ∈ rows p.2, r.startAddress.toNat < p.2.size.toNat)
    (hasc : FunctionsAscending (ps.map Prod.snd))
    (hlt : ∀ e ∈ b.fdes, ∀ p ∈ ps, e.1.toInt < p.2.startAddress.toInt) :
    copyFunctions s b (ps.map Prod.fst) = .ok (.ok { b with
      fdes := b.fdes ++ ps.map fun p => (p.2.startAddress, copiedFn p.2) }) := by
  induction ps generalizing b with
  | nil => simp [copyFunctions]
  | cons p ps ih =>
    obtain ⟨e, f⟩ := p
    have he := hp (e, f) (by simp)
    have hi := hin (e, f) (by simp)
    simp only at he hi
    simp only [List.map_cons, copyFunctions]
    rw [he.rows, readings_inside _ _ _ _ hi, Rust.bind_ok, copyFunction_eq he hi]
    simp only
    have hfde : b.fde (copiedFn f) = .ok { b with fdes := b.fdes ++ [(f.startAddress, copiedFn f)] } := by
      unfold SFrameBuilder.fde
      rw [if_pos (by rw [hopt, he.options]; rfl)]
      rw [show (copiedFn f).startAddress = f.startAddress from rfl,
        BMap.insert_last (ord := ordI32) (k := f.startAddress) fun x hx => hlt x hx (e, f) (by simp)]
    rw [hfde, Rust.bind_ok]
    have hasc' := List.pairwise_cons.1 hasc
    rw [ih { b with fdes := b.fdes ++ [(f.startAddress, copiedFn f)] } (fun p hp' => hp p (by simp [hp'])) hopt (fun p hp' => hin p (by simp [hp'])) hasc'.2 ?_]
    · simp
    · intro x hx p hp'
      simp only [List.mem_append, List.mem_singleton] at hx
      rcases hx with hx | rfl
      · exact hlt x hx p (by simp [hp'])
      · exact hasc'.1 p.2 (List.mem_map_of_mem hp')

theorem copyFunctions_panics {o : Endian} {s : SFrame o} (ps : List (FuncDescEntry o × FuncDescBuilder))
    (b : SFrameBuilder) (hp : ∀ p ∈ ps, Emitted s p.1 p.2) (hopt : b.options = optionsOf s)
    (hin : ¬ ∀ p ∈ ps, ∀ r ∈ rows p.2, r.startAddress.toNat < p.2.size.toNat) :
    copyFunctions s b (ps.map Prod.fst) = .panic .assertion := by
  induction ps generalizing b with
  | nil => exact absurd (by simp) hin
  | cons p ps ih =>
    obtain ⟨e, f⟩ := p
    have he := hp (e, f) (by simp)
    simp only at he
    simp only [List.map_cons, copyFunctions]
    rw [he.rows]
    by_cases hi : ∀ r ∈ rows f, r.startAddress.toNat < f.size.toNat
    · rw [readings_inside _ _ _ _ hi, Rust.bind_ok, copyFunction_eq he hi]
      simp only
      have hfde : ∃ b', b.fde (copiedFn f) = .ok b' ∧ b'.options = b.options := by
        unfold SFrameBuilder.fde
        rw [if_pos (by rw [hopt, he.options]; rfl)]
        exact ⟨_, rfl, rfl⟩
      obtain ⟨b', hb', ho⟩ := hfde
      rw [hb', Rust.bind_ok]
      refine ih b' (fun p hp' => hp p (by simp [hp'])) (by rw [ho, hopt]) fun hh => hin fun p hp' => ?_
      rcases List.mem_cons.1 hp' with rfl | hp'
      · exact hi
      · exact hh p hp'
    · rw [readings_outside _ _ _ _ hi]
      rfl

/-- The entries of a built section. -/
theorem emitted {o : Endian} {b : SFrameBuilder} {d : Bool} (hb : SFrameBuilder.Reachable d b) (hm : ApiMade b)
    (hfits : Fits o b) : ∃ ps : List (FuncDescEntry o × FuncDescBuilder),
      (readBack o b).iter.collect = .ok (ps.map Prod.fst) ∧ functions b = ps.map Prod.snd ∧
      ∀ p ∈ ps, Emitted (readBack o b) p.1 p.2 := by
  obtain ⟨es, hes, hlen, hget⟩ := readBack_entries o b hfits
  obtain ⟨h1, h2⟩ := readBack_fixed (o := o) b
  have hl := functions_length b
  refine ⟨es.zip (functions b), ?_, ?_, ?_⟩
  · rw [hes, List.map_fst_zip (by omega)]
  · rw [List.map_snd_zip (by omega)]
  · intro p hp
    obtain ⟨i, hi⟩ := List.mem_iff_getElem?.1 hp
    rw [List.getElem?_zip_eq_some] at hi
    obtain ⟨he, hf⟩ := hi
    obtain ⟨e, f⟩ := p
    simp only at he hf ⊢
    obtain ⟨rest, hr⟩ := hget i f hf
    have hmem := List.mem_of_getElem? hf
    obtain ⟨hfi, hopt⟩ := hb.inv.function hmem
    have hrows : (e.iter.collect.bind fun rs => .ok (rs.map (·.map (readingIn (readBack o b))))) =
        readingsOf f.size (f.options.fixedRa.map (·.val)) (f.options.fixedFp.map (·.val))
          ((rows f).map fun r => .ok (rowView r)) := by
      have heq := Option.some.inj (he.symm.trans hr)
      rw [FuncDescEntry.collect_eq]
      have := readRows_readings (readBack o b) e.fde e.fde.numFres.toNat e.fres
      rw [built_decodes hb.inv hfits hf heq, h1, h2, ← hopt] at this
      subst heq
      exact this
    have hm' : optionsOf (readBack o b) = b.options := optionsOf_readBack hm
    cases Option.some.inj (he.symm.trans hr)
    refine ⟨rfl, rfl, ?_, rfl, ?_, hm'.trans hopt.symm, hfi, hrows⟩
    · simp only [FuncDescEntry.fdetype, Fde.fdetype, fdeOf, fdeInfo, FuncDescBuilder.fdetype]
      cases f.repSize <;> cases f.pauthKey <;> cases addrTy f <;>
        simp only [Option.isSome_some, Option.isSome_none] <;> decide
    · simp only [FuncDescEntry.pauthKey, Fde.info, fdeOf, fdeInfo, FuncDescBuilder.fdetype]
      cases f.repSize <;> cases f.pauthKey <;> cases addrTy f <;> simp only <;> decide

/-! ### What comes out is a builder that a program can hold -/

theorem copyRows_reachable {l : List (Except ReadError RowReading)} {f g : FuncDescBuilder} (hf : f.Reachable)
    (h : copyRows f l = .ok g) : g.Reachable := by
  induction l generalizing f with
  | nil => cases h; exact hf
  | cons r l ih =>
    cases r with
    | error => cases h
    | ok r =>
      simp only [copyRows] at h
      cases hr : f.row (rowAgain r) with
      | error => rw [hr] at h; cases h
      | ok f' =>
        rw [hr] at h
        exact ih (.call (.row (rowAgain r)) hf (by simp [FuncDescBuilder.call, hr])) h

theorem copyFunction_reachable {o : Endian} {opts : SFrameOptions} {e : FuncDescEntry o}
    {l : List (Except ReadError RowReading)} {g : FuncDescBuilder} (h : copyFunction opts e l = .ok g) :
    g.Reachable := by
  unfold copyFunction at h
  cases hr : copyRows (FuncDescBuilder.new opts e.startAddress e.size) l with
  | error => rw [hr] at h; cases h
  | ok f =>
    rw [hr] at h
    have hf := copyRows_reachable (.new _ _ _) hr
    have hk : (f.setPauthKey e.pauthKey).Reachable := .call (.pauthKey _) hf rfl
    simp only [Except.ok.injEq] at h
    split at h
    · cases h; exact hk
    · cases h; exact .call (.pcmask _) hk rfl

theorem copyFunctions_reachable {o : Endian} {d : Bool} {s : SFrame o} {es : List (FuncDescEntry o)}
    {b c : SFrameBuilder} (hb : SFrameBuilder.Reachable d b) (h : copyFunctions s b es = .ok (.ok c)) :
    SFrameBuilder.Reachable d c := by
  induction es generalizing b with
  | nil => cases h; exact hb
  | cons e es ih =>
    simp only [copyFunctions] at h
    obtain ⟨rs, _, h⟩ := Rust.bind_eq_ok.1 h
    cases hf : copyFunction (optionsOf s) e rs with
    | error => rw [hf] at h; cases h
    | ok f =>
      rw [hf] at h
      obtain ⟨b', hb', h⟩ := Rust.bind_eq_ok.1 h
      exact ih (.fde hb (copyFunction_reachable hf) hb') h

/-! ### Building depends only on what is kept -/

theorem anyPairs_congr (dbg : Bool) {fs gs : List FuncDescBuilder} (hlen : fs.length = gs.length)
    (h : ∀ (i : Nat) (f g : FuncDescBuilder), fs[i]? = some f → gs[i]? = some g → SameKept f g) :
    anyPairs (overlaps dbg) fs = anyPairs (overlaps dbg) gs := by
  induction fs generalizing gs with
  | nil => cases gs with
    | nil => rfl
    | cons g gs => cases hlen
  | cons f fs ih =>
    cases gs with
    | nil => cases hlen
    | cons g gs =>
      have h0 := h 0 f g rfl rfl
      have ih := ih (Nat.succ.inj hlen) fun i a b ha hb => h (i + 1) a b ha hb
      cases fs with
      | nil => cases gs with
        | nil => rfl
        | cons g gs => cases hlen
      | cons f' fs =>
        cases gs with
        | nil => cases hlen
        | cons g' gs =>
          have h1 := h 1 f' g' rfl rfl
          have ho : overlaps dbg f f' = overlaps dbg g g' := by
            unfold overlaps
            rw [h0.start, h0.size, h1.start]
          simp only [anyPairs]
          rw [ho, ih]

/-- Two builders of which the same remains give the same, whatever it is. -/
theorem build_congr (dbg : Bool) (o : Endian) {b c : SFrameBuilder} (hb : BuilderInv b) (hc : BuilderInv c)
    (h : SameSection b c) : c.build dbg o = b.build dbg o := by
  obtain ⟨h1, h2, _⟩ := emit_congr o h.count h.each
  have hlen : b.fdes.length = c.fdes.length := by
    have := h.count
    simpa [functions] using this
  have hf : Fits o b ↔ Fits o c := by
    unfold Fits
    rw [values_functions, values_functions, h1, h2, hlen]
  rw [build_eq dbg o b hb, build_eq dbg o c hc, values_functions, values_functions,
    anyPairs_congr dbg h.count h.each, image_congr o h]
  simp only [hf]

/-- Of the copy of a function the same remains. -/
theorem copiedFn_kept {f : FuncDescBuilder} (h : FdeInv f)
    (hr : ∀ r ∈ rows f, r.offsets = none → r.baseReg = .fp) : SameKept f (copiedFn f) := by
  refine ⟨rfl, rfl, rfl, rfl, ?_⟩
  show _ = List.map kept (List.map Prod.snd (List.map _ (rows f)))
  rw [List.map_map, List.map_map]
  apply List.map_congr_left
  intro r hmem
  refine (copied_kept ?_ (hr r hmem)).symm
  simp only [rows, List.mem_map] at hmem
  obtain ⟨e, he, rfl⟩ := hmem
  exact h.dropped e he

/-! ### C110 -/

/-- **C110.**  Loading a section that was built and building it anew, with the same options and the rows as the
accessors tell them, gives a builder that builds the same bytes, and in either byte order and profile the same as
the first one. -/
theorem C110_rewrite (dbg d : Bool) (o : Endian) (b : SFrameBuilder) (hb : SFrameBuilder.Reachable d b)
    (hm : ApiMade b) (hin : RowsInside b) (out : List U8) (h : b.build dbg o = .ok (.ok out)) :
    ∃ c, rewrite o out = .ok (.ok c) ∧ SFrameBuilder.Reachable d c ∧ SameSection b c ∧
      c.build dbg o = .ok (.ok out) ∧ ∀ dbg' o', c.build dbg' o' = b.build dbg' o' := by
  obtain ⟨rfl, _, hfits⟩ := build_ok hb.inv h
  obtain ⟨ps, h1, h2, h3⟩ := emitted (o := o) hb hm hfits
  have hmem : ∀ p ∈ ps, p.2 ∈ functions b := fun p hp => h2 ▸ List.mem_map_of_mem hp
  have hc := copyFunctions_eq (s := readBack o b) ps (SFrameBuilder.new (optionsOf (readBack o b))) h3 rfl
    (fun p hp => hin _ (hmem p hp)) (h2 ▸ functions_ascending hb.inv) (by simp [SFrameBuilder.new])
  generalize hcc : ({ (SFrameBuilder.new (optionsOf (readBack o b))) with
    fdes := (SFrameBuilder.new (optionsOf (readBack o b))).fdes ++
      ps.map fun p => (p.2.startAddress, copiedFn p.2) } : SFrameBuilder) = c at hc
  have hr : rewrite o (image o b) = .ok (.ok c) := by
    unfold rewrite
    rw [load_image o b hfits, Rust.bind_ok]
    simp only
    rw [h1, Rust.bind_ok, hc]
  have hreach := copyFunctions_reachable (d := d) (.new _) hc
  refine ⟨c, hr, hreach, ?_⟩
  have hsame : SameSection b c := by
    subst hcc
    have hfun : functions { (SFrameBuilder.new (optionsOf (readBack o b))) with
        fdes := (SFrameBuilder.new (optionsOf (readBack o b))).fdes ++
          ps.map fun p => (p.2.startAddress, copiedFn p.2) } = (functions b).map copiedFn := by
      rw [h2]
      simp [functions, SFrameBuilder.new]
    refine ⟨(optionsOf_readBack hm).symm, by rw [hfun, List.length_map], fun i f g hf hg => ?_⟩
    rw [hfun, List.getElem?_map, hf] at hg
    cases hg
    have hf' := List.mem_of_getElem? hf
    exact copiedFn_kept (hb.inv.function hf').1 (hm.rows f hf')
  have hall := fun dbg' o' => build_congr dbg' o' hb.inv hreach.inv hsame
  exact ⟨hsame, by rw [← h]; exact hall dbg o, hall⟩

/-- **C110.**  If a row starts behind the end of its function the rewriting panics: reading stops there. -/
theorem C110_panics (dbg d : Bool) (o : Endian) (b : SFrameBuilder) (hb : SFrameBuilder.Reachable d b)
    (hm : ApiMade b) (hin : ¬ RowsInside b) (out : List U8) (h : b.build dbg o = .ok (.ok out)) :
    rewrite o out = .panic .assertion := by
  obtain ⟨rfl, _, hfits⟩ := build_ok hb.inv h
  obtain ⟨ps, h1, h2, h3⟩ := emitted (o := o) hb hm hfits
  unfold rewrite
  rw [load_image o b hfits, Rust.bind_ok]
  simp only
  rw [h1, Rust.bind_ok]
  refine copyFunctions_panics ps _ h3 rfl fun hh => hin fun f hf => ?_
  rw [h2] at hf
  obtain ⟨p, hp, rfl⟩ := List.mem_map.1 hf
  exact hh p hp

/-- The options and the rows that the public functions make are as the theorems want them. -/
theorem C110_made {opts : SFrameOptions} (h : opts.Reachable) :
    (opts.flags = Flags.FDE_SORTED ∨ opts.flags = Flags.FDE_SORTED ||| Flags.FRAME_POINTER) ∧
    (∀ base start offsets m, ((FrameRowBuilder.new base start offsets).mangledRaP m).offsets ≠ none) ∧
    ∀ start m, ((FrameRowBuilder.invalid start).mangledRaP m).baseReg = .fp := by
  refine ⟨?_, by simp [FrameRowBuilder.new, FrameRowBuilder.mangledRaP],
    by simp [FrameRowBuilder.invalid, FrameRowBuilder.mangledRaP]⟩
  induction h with
  | new => exact .inl rfl
  | call c _ ih => cases c with
    | framePointer v => rcases ih with ih | ih <;> cases v <;>
        simp [SFrameOptions.call, SFrameOptions.framePointer, ih] <;> decide
    | _ => exact ih

/-- The sample section, with a function that has a repetition size. -/
example (dbg : Bool) : SFrameBuilder.Reachable dbg Samples.sec ∧ ApiMade Samples.sec ∧ RowsInside Samples.sec ∧
    Samples.sec.build dbg .little = .ok (.ok Samples.secOut) ∧
    rewrite .little Samples.secOut = .ok (.ok Samples.sec) :=
  ⟨Samples.sec_reachable dbg, ⟨by decide +kernel, by decide +kernel⟩, by unfold RowsInside; decide +kernel,
    Samples.sec_build dbg, by decide +kernel⟩

/-- A row with a tie between two offsets, which are not written as they are: the second builder has what is left of
them, and gives the same bytes. -/
example (dbg : Bool) :
    let b := Samples.one 16 ⟨0, some ⟨-128, some 128, none⟩, false, .sp⟩
    let c := Samples.one 16 ⟨0, some ⟨-128, some (-128), none⟩, false, .sp⟩
    ∃ out, b.build dbg .little = .ok (.ok out) ∧ rewrite .little out = .ok (.ok c) ∧
      c.build dbg .little = .ok (.ok out) := by
  cases dbg <;> exact ⟨_, rfl, by decide +kernel, by decide +kernel⟩

/-- A row behind the end of its function. -/
example (dbg : Bool) : ∃ out, (Samples.one 16 ⟨16, some ⟨8, none, none⟩, false, .sp⟩).build dbg .little = .ok (.ok out) ∧
    rewrite .little out = .panic .assertion := by
  cases dbg <;> exact ⟨_, rfl, by decide +kernel⟩

end Verif
