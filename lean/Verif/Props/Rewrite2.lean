import Verif.Spec.Rewrite2
import Verif.Props.Rewrite
/-!
# Rewriting a section that any program may have made: C113
-/

namespace Verif
open Spec SFrameBuilder

variable {o : Endian}

/-! ### Rows -/

/-- What a row of a builder tells. -/
def toldBy (opts : SFrameOptions) (r : FrameRowBuilder) : Told :=
  { start := r.startAddress, mangled := r.mangled,
    cfa := r.offsets.map fun x => (r.baseReg, x.cfa),
    ra := match opts.fixedRa with
      | some x => some (x.val.signExtend 32)
      | none => r.offsets.bind (·.ra),
    fp := match opts.fixedFp with
      | some x => some (x.val.signExtend 32)
      | none => r.offsets.bind (·.fp) }

theorem fixedRa_optionsOf (s : SFrame o) : (optionsOf s).fixedRa.map (·.val) = s.fixedRaOffset := by
  show (s.fixedRaOffset.bind NonZeroI8.new).map (·.val) = _
  unfold SFrame.fixedRaOffset
  split
  · rfl
  · rename_i h
    rw [Option.bind_some, NonZeroI8.new, dif_pos (show _ ≠ 0#8 from h)]
    rfl

theorem fixedFp_optionsOf (s : SFrame o) : (optionsOf s).fixedFp.map (·.val) = s.fixedFpOffset := by
  show (s.fixedFpOffset.bind NonZeroI8.new).map (·.val) = _
  unfold SFrame.fixedFpOffset
  split
  · rfl
  · rename_i h
    rw [Option.bind_some, NonZeroI8.new, dif_pos (show _ ≠ 0#8 from h)]
    rfl

/-- The row that is stored for row `q`. -/
def again (s : SFrame o) (q : FrameRowEntry o) : FrameRowBuilder :=
  storedRow (optionsOf s) (rowAgain (readingIn s q))

theorem again_start (s : SFrame o) (q : FrameRowEntry o) : (again s q).startAddress = q.startAddressOffset := by
  unfold again storedRow rowAgain readingIn
  simp only [FrameRowBuilder.mangledRaP]
  split <;> rfl

theorem rowAgain_start (s : SFrame o) (q : FrameRowEntry o) :
    (rowAgain (readingIn s q)).startAddress = q.startAddressOffset := again_start s q

/-- A row without offset for the CFA has no others. -/
theorem no_cfa {q : FrameRowEntry o} {e : ReadError} (h : q.cfaOffset = .error e) :
    q.storedOffsets = [] := by
  unfold FrameRowEntry.cfaOffset at h
  cases hs : q.storedOffsets with
  | nil => rfl
  | cons a l => rw [hs] at h; cases h

theorem toldBy_again (s : SFrame o) (q : FrameRowEntry o) : toldBy (optionsOf s) (again s q) = told s q := by
  have h1 := fixedRa_optionsOf s
  have h2 := fixedFp_optionsOf s
  have hse : ∀ x : NonZeroI8, x.val ≠ 0#8 := fun x => x.2
  unfold toldBy told again storedRow rowAgain readingIn
  simp only [FrameRowBuilder.mangledRaP]
  unfold FrameRowEntry.raOffset FrameRowEntry.fpOffset
  rw [← h1, ← h2]
  cases hc : q.cfaOffset with
  | error e =>
    have hs := no_cfa hc
    cases (optionsOf s).fixedRa <;> cases (optionsOf s).fixedFp <;>
      simp [FrameRowBuilder.invalid, hs, Except.toOption]
  | ok c =>
    cases (optionsOf s).fixedRa <;> cases (optionsOf s).fixedFp <;>
      simp [FrameRowBuilder.new, Except.toOption]

theorem values_again (s : SFrame o) (q : FrameRowEntry o) : values (again s q) = (told s q).stored s := by
  have h1 := fixedRa_optionsOf s
  have h2 := fixedFp_optionsOf s
  unfold values Told.stored told again storedRow rowAgain readingIn
  simp only [FrameRowBuilder.mangledRaP]
  rw [← h1, ← h2]
  cases hc : q.cfaOffset with
  | error e => rfl
  | ok c =>
    cases (optionsOf s).fixedRa <;> cases (optionsOf s).fixedFp <;>
      simp [FrameRowBuilder.new, Except.toOption]

/-- An FP offset that the row stores comes after an RA offset. -/
theorem again_ordered (s : SFrame o) (q : FrameRowEntry o) (x : FrameRowOffsets) (hx : (again s q).offsets = some x)
    (hr : (optionsOf s).fixedRa = none) (hf : x.fp.isSome) : x.ra.isSome := by
  have h1 := fixedRa_optionsOf s
  have h2 := fixedFp_optionsOf s
  unfold again storedRow rowAgain readingIn at hx
  simp only [FrameRowBuilder.mangledRaP] at hx
  unfold FrameRowEntry.raOffset FrameRowEntry.fpOffset at hx
  rw [← h1, ← h2, hr] at hx
  cases hc : q.cfaOffset with
  | error e => rw [hc] at hx; simp [FrameRowBuilder.invalid] at hx
  | ok c =>
    rw [hc] at hx
    simp only [FrameRowBuilder.new, Option.map_some, Option.some.injEq] at hx
    subst hx
    cases hfp : (optionsOf s).fixedFp with
    | some y => rw [hfp] at hf; simp at hf
    | none =>
      rw [hfp] at hf
      simp only [Option.isSome_none, Bool.false_eq_true, if_false, Option.map_none] at hf ⊢
      cases h3 : q.storedOffsets[2]? with
      | none => rw [h3] at hf; simp [Except.toOption] at hf
      | some v =>
        have : 1 < q.storedOffsets.length := by
          obtain ⟨h, _⟩ := List.getElem?_eq_some_iff.1 h3
          omega
        rw [List.getElem?_eq_getElem this]
        rfl

theorem again_allowed (s : SFrame o) (q : FrameRowEntry o) :
    ((rowAgain (readingIn s q)).offsets.all fun x => fixedAllows (optionsOf s).fixedRa x.ra) = true ∧
    ((rowAgain (readingIn s q)).offsets.all fun x => fixedAllows (optionsOf s).fixedFp x.fp) = true := by
  have h1 := fixedRa_optionsOf s
  have h2 := fixedFp_optionsOf s
  unfold rowAgain readingIn
  simp only [FrameRowBuilder.mangledRaP]
  cases q.cfaOffset with
  | error e => simp [FrameRowBuilder.invalid]
  | ok c =>
    simp only [FrameRowBuilder.new, Option.all_some]
    unfold FrameRowEntry.raOffset FrameRowEntry.fpOffset
    rw [← h1, ← h2]
    constructor
    · cases (optionsOf s).fixedRa with
      | none => simp [fixedAllows]
      | some x => simp [fixedAllows, Except.toOption, BitVec.toInt_signExtend_of_le]
    · cases (optionsOf s).fixedFp with
      | none => simp [fixedAllows]
      | some x => simp [fixedAllows, Except.toOption, BitVec.toInt_signExtend_of_le]

/-! ### Adding rows -/

theorem copyRows_ok {s : SFrame o} {l : List (Except ReadError (FrameRowEntry o))} {f g : FuncDescBuilder}
    (hi : FdeInv f) (hopt : f.options = optionsOf s)
    (h : copyRows f (l.map (·.map (readingIn s))) = .ok g) :
    ∃ qs : List (FrameRowEntry o), l = qs.map .ok ∧ (rows g).Perm (rows f ++ qs.map (again s)) ∧
      FdeInv g ∧ g.options = f.options ∧ g.startAddress = f.startAddress ∧ g.size = f.size ∧
      g.repSize = f.repSize ∧ g.pauthKey = f.pauthKey := by
  induction l generalizing f with
  | nil => cases h; exact ⟨[], rfl, by simp, hi, rfl, rfl, rfl, rfl, rfl⟩
  | cons x l ih =>
    cases x with
    | error e => cases h
    | ok q =>
      simp only [List.map_cons, Except.map, copyRows] at h
      have hrow := row_spec hi (rowAgain (readingIn s q))
      cases he : rowError f (rowAgain (readingIn s q)) with
      | some e => rw [he] at hrow; simp only at hrow; rw [hrow] at h; cases h
      | none =>
        rw [he] at hrow
        simp only at hrow
        have hi' := hi.row hrow
        rw [hrow] at h
        simp only at h
        obtain ⟨qs, h1, h2, h3⟩ := ih hi' hopt h
        refine ⟨q :: qs, by rw [h1]; rfl, h2.trans ?_, h3⟩
        have hnew : ∀ e ∈ f.fres, ordU32 e.1 ≠ ordU32 (rowAgain (readingIn s q)).startAddress := by
          intro e hmem heq
          rw [ordU32_inj, hi.key e hmem] at heq
          rw [rowError_cases] at he
          have : ((rows f).all fun r' => decide (r'.startAddress ≠ (rowAgain (readingIn s q)).startAddress)) = true := by
            apply Classical.byContradiction
            intro hn
            rw [if_pos hn] at he
            repeat' split at he
            all_goals cases he
          rw [List.all_eq_true] at this
          have := this e.2 (List.mem_map_of_mem hmem)
          simp [heq] at this
        have hp := (insert_perm (v := storedRow f.options (rowAgain (readingIn s q))) hnew).map Prod.snd
        simp only [List.map_cons] at hp ⊢
        have : again s q = storedRow f.options (rowAgain (readingIn s q)) := by rw [hopt]; rfl
        rw [this]
        refine (hp.append_right _).trans ?_
        exact List.perm_middle.symm

/-- What is taken over of an entry. -/
structure Copied (s : SFrame o) (e : FuncDescEntry o) (f : FuncDescBuilder) : Prop where
  start : f.startAddress = e.startAddress
  size : f.size = e.size
  key : f.pauthKey = e.pauthKey
  rep : f.repSize = if e.fdetype = .pcInc then none else some (e.repBlockSize.getD 0)
  options : f.options = optionsOf s
  inv : FdeInv f
  rows : ∃ qs : List (FrameRowEntry o), e.iter.collect = .ok (qs.map .ok) ∧ (rows f).Perm (qs.map (again s))

theorem FdeInv.congr {f g : FuncDescBuilder} (h : FdeInv f) (h1 : g.fres = f.fres) (h2 : g.options = f.options) :
    FdeInv g := by
  constructor
  · rw [h1]; exact h.sorted
  · rw [h1]; exact h.key
  · rw [h1]; exact h.small
  · rw [h1, h2]; exact h.dropped

theorem copyFunction_ok {s : SFrame o} {e : FuncDescEntry o} {l : List (Except ReadError (FrameRowEntry o))}
    {f : FuncDescBuilder} (hl : e.iter.collect = .ok l)
    (h : copyFunction (optionsOf s) e (l.map (·.map (readingIn s))) = .ok f) : Copied s e f := by
  unfold copyFunction at h
  cases hr : copyRows (FuncDescBuilder.new (optionsOf s) e.startAddress e.size) (l.map (·.map (readingIn s))) with
  | error => rw [hr] at h; cases h
  | ok g =>
    rw [hr] at h
    obtain ⟨qs, h1, h2, h3, h4, h5, h6, h7, h8⟩ := copyRows_ok (FuncDescBuilder.Reachable.new _ _ _).inv rfl hr
    have h2' : (rows g).Perm (qs.map (again s)) := by simpa [FuncDescBuilder.new, rows] using h2
    simp only [Except.ok.injEq] at h
    by_cases ht : e.fdetype = .pcInc
    · rw [if_pos ht] at h
      subst h
      exact ⟨h5, h6, rfl, by rw [if_pos ht]; exact h7, h4, h3.congr rfl rfl, qs, by rw [hl, h1], h2'⟩
    · rw [if_neg ht] at h
      subst h
      exact ⟨h5, h6, rfl, by rw [if_neg ht]; rfl, h4, h3.congr rfl rfl, qs, by rw [hl, h1], h2'⟩

/-! ### Adding functions -/

theorem lastAt_nil (a : I32) : lastAt ([] : List (FuncDescEntry o)) a = none := rfl

theorem lastAt_cons (e : FuncDescEntry o) (es : List (FuncDescEntry o)) (a : I32) :
    lastAt (e :: es) a = match lastAt es a with
      | some x => some x
      | none => if e.startAddress = a then some e else none := by
  unfold lastAt
  by_cases h : e.startAddress = a
  · rw [List.filter_cons_of_pos (by simpa using h), List.getLast?_cons, if_pos h]
    cases (es.filter fun e => decide (e.startAddress = a)).getLast? <;> rfl
  · rw [List.filter_cons_of_neg (by simpa using h), if_neg h]
    cases (es.filter fun e => decide (e.startAddress = a)).getLast? <;> rfl

theorem copyFunctions_ok {s : SFrame o} {es : List (FuncDescEntry o)} {b c : SFrameBuilder} (hb : BuilderInv b)
    (hopt : b.options = optionsOf s) (h : copyFunctions s b es = .ok (.ok c)) :
    BuilderInv c ∧ c.options = b.options ∧ ∀ a, match lastAt es a with
      | some e => ∃ f, c.fdes.get ordI32 a = some f ∧ Copied s e f
      | none => c.fdes.get ordI32 a = b.fdes.get ordI32 a := by
  induction es generalizing b with
  | nil => cases h; exact ⟨hb, rfl, fun a => rfl⟩
  | cons e es ih =>
    simp only [copyFunctions] at h
    obtain ⟨rs, hrs, h⟩ := Rust.bind_eq_ok.1 h
    obtain ⟨l, hl, hrs⟩ := Rust.bind_eq_ok.1 hrs
    cases hrs
    cases hf : copyFunction (optionsOf s) e (l.map (·.map (readingIn s))) with
    | error => rw [hf] at h; cases h
    | ok f =>
      rw [hf] at h
      obtain ⟨b', hb', h⟩ := Rust.bind_eq_ok.1 h
      have hc := copyFunction_ok hl hf
      have hbi : BuilderInv b' := hb.addFde hc.inv hb'
      unfold SFrameBuilder.fde at hb'
      rw [if_pos (by rw [hopt, hc.options])] at hb'
      cases hb'
      obtain ⟨h1, h2, h3⟩ := ih hbi hopt h
      refine ⟨h1, h2, fun a => ?_⟩
      have h3 := h3 a
      rw [lastAt_cons]
      cases hla : lastAt es a with
      | some x => rw [hla] at h3; exact h3
      | none =>
        rw [hla] at h3
        simp only at h3 ⊢
        rw [BMap.get_insert hb.sorted, hc.start] at h3
        by_cases ha : e.startAddress = a
        · rw [if_pos ha]
          rw [if_pos (by rw [ha])] at h3
          exact ⟨f, h3, hc⟩
        · rw [if_neg ha]
          rwa [if_neg (by rw [ordI32_inj]; exact fun h => ha h.symm)] at h3

/-! ### What the built section tells -/

/-- What a reading tells. -/
def toldIn (r : RowReading) : Told :=
  { start := r.start, mangled := r.mangled, cfa := r.cfa.toOption.map fun x => (r.base, x),
    ra := r.ra.toOption, fp := r.fp.toOption }

theorem told_reading (s : SFrame o) (q : FrameRowEntry o) : told s q = toldIn (readingIn s q) := rfl

theorem ofInt_eq_iff {v : Int} {x : I32} (h : (BitVec.ofInt 32 v).toInt = v) : BitVec.ofInt 32 v = x ↔ v = x.toInt :=
  ⟨fun e => by rw [← e, h], fun e => by rw [e, BitVec.ofInt_toInt]⟩

/-- A row of the built section tells what the row of the builder does, exactly if it can be stored. -/
theorem told_iff {opts : SFrameOptions} {r : FrameRowBuilder} (hd : FixedDropped opts r) :
    toldIn (readingOf (opts.fixedRa.map (·.val)) (opts.fixedFp.map (·.val)) (rowView r)) = toldBy opts r ↔
      ¬ WidthTie (values r) ∧
      ∀ x, r.offsets = some x → opts.fixedRa = none → x.fp.isSome → x.ra.isSome := by
  rw [← truncTo_all]
  have key : ∀ x y : I32, BitVec.ofInt 32 (truncTo (rowOffsetType r) x) = y ↔ truncTo (rowOffsetType r) x = y.toInt :=
    fun x y => ofInt_eq_iff (ofInt_truncTo _ x)
  unfold toldIn readingOf toldBy rowView FixedDropped at *
  generalize rowOffsetType r = t at *
  cases hra : opts.fixedRa <;> cases hfp : opts.fixedFp <;> cases ho : r.offsets with
  | none => simp [rowValues, ho, Except.toOption]
  | some x =>
    obtain ⟨c, ra, fp⟩ := x
    have hd := hd _ ho
    rw [hra, hfp] at hd
    cases ra <;> cases fp <;> simp [rowValues, ho, Except.toOption, key] at hd ⊢

theorem collect_ok_iff {l : List (Except ReadError (FrameRowEntry o))} {s : SFrame o} {rs : List RowReading}
    (h : l.map (·.map (readingIn s)) = rs.map .ok) : ∃ qs : List (FrameRowEntry o), l = qs.map .ok ∧
      qs.map (readingIn s) = rs := by
  induction l generalizing rs with
  | nil => cases rs with
    | nil => exact ⟨[], rfl, rfl⟩
    | cons => cases h
  | cons x l ih => cases rs with
    | nil => cases h
    | cons r rs =>
      simp only [List.map_cons, List.cons.injEq] at h
      obtain ⟨qs, h1, h2⟩ := ih h.2
      cases x with
      | error => cases h.1
      | ok q => exact ⟨q :: qs, by rw [h1]; rfl, by rw [List.map_cons, h2, Except.ok.inj h.1]⟩

theorem map_eq_map_iff' {α β : Type} {f g : α → β} {l : List α} : l.map f = l.map g ↔ ∀ x ∈ l, f x = g x := by
  simp

theorem rows_told {s : SFrame o} {e : FuncDescEntry o} {f : FuncDescBuilder} (h : Emitted s e f)
    (hin : ∀ r ∈ rows f, r.startAddress.toNat < f.size.toNat)
    (hord : ∀ r ∈ rows f, ∀ x, r.offsets = some x → f.options.fixedRa = none → x.fp.isSome → x.ra.isSome) :
    RowsTell s e ((rows f).map (toldBy f.options)) ↔ ∀ r ∈ rows f, ¬ WidthTie (values r) := by
  have hr := h.rows
  rw [readings_inside _ _ _ _ hin] at hr
  obtain ⟨l, hl, hr⟩ := Rust.bind_eq_ok.1 hr
  have hr : l.map (·.map (readingIn s)) = ((rows f).map fun r => readingOf (f.options.fixedRa.map (·.val))
      (f.options.fixedFp.map (·.val)) (rowView r)).map .ok := by
    rw [List.map_map]
    exact Rust.ok.inj hr
  obtain ⟨qs, rfl, hq⟩ := collect_ok_iff hr
  have hdrop : ∀ r ∈ rows f, FixedDropped f.options r := by
    intro r hr
    simp only [rows, List.mem_map] at hr
    obtain ⟨e, he, rfl⟩ := hr
    exact h.inv.dropped e he
  have htold : qs.map (told s) = (rows f).map fun r => toldIn (readingOf (f.options.fixedRa.map (·.val))
      (f.options.fixedFp.map (·.val)) (rowView r)) := by
    have := congrArg (List.map toldIn) hq
    rw [List.map_map, List.map_map] at this
    exact this
  have : RowsTell s e ((rows f).map (toldBy f.options)) ↔ qs.map (told s) = (rows f).map (toldBy f.options) := by
    constructor
    · rintro ⟨rs, h1, h2⟩
      rw [hl] at h1
      rw [List.map_inj_right (fun _ _ h => Except.ok.inj h) |>.1 (Rust.ok.inj h1), h2]
    · exact fun h => ⟨qs, hl, h⟩
  rw [this, htold, map_eq_map_iff']
  refine forall_congr' fun r => forall_congr' fun hr => ?_
  rw [told_iff (hdrop r hr)]
  exact and_iff_left (hord r hr)

/-! ### Reading -/

/-- A row that can be read starts inside its function. -/
theorem read_inside {fde : Fde} {n : Nat} {bs : List U8} {l : List (Except ReadError (FrameRowEntry o))}
    (h : readRows o fde n bs = .ok l) : ∀ q, .ok q ∈ l → q.startAddressOffset.toNat < fde.size.toNat := by
  induction n generalizing bs l with
  | zero => cases h; simp
  | succ n ih =>
    have hs := freLoad_spec o fde bs
    unfold readRows at h
    cases hd : decodeFre o fde.info.toNat bs with
    | error e =>
      rw [hd] at hs
      simp only at hs
      rw [hs] at h
      cases h
      simp
    | ok p =>
      obtain ⟨v, rest⟩ := p
      rw [hd] at hs
      simp only at hs
      split at hs
      · rename_i hlt
        obtain ⟨r, hr, hv, _⟩ := hs
        rw [hr] at h
        simp only [Rust.bind_ok] at h
        obtain ⟨rs, hrs, h⟩ := Rust.bind_eq_ok.1 h
        cases h
        intro q hq
        rcases List.mem_cons.1 hq with hq | hq
        · cases hq
          rw [← hv] at hlt
          exact hlt
        · exact ih hrs q hq
      · rw [hs] at h; cases h

theorem flags_optionsOf (s : SFrame o) :
    ((optionsOf s).flags = Flags.FDE_SORTED ∨ (optionsOf s).flags = Flags.FDE_SORTED ||| Flags.FRAME_POINTER) ∧
    (optionsOf s).flags.getLsbD 0 = true ∧ (optionsOf s).flags.getLsbD 1 = s.flags.getLsbD 1 := by
  have h : (optionsOf s).flags = Flags.set Flags.FDE_SORTED Flags.FRAME_POINTER (s.flags &&& Flags.FRAME_POINTER != 0) :=
    rfl
  rw [h]
  generalize s.flags = x
  revert x
  decide +kernel

/-- The builder that comes out is as the public functions make it. -/
theorem copied_made {s : SFrame o} {c : SFrameBuilder} (hopt : c.options = optionsOf s)
    (h : ∀ f ∈ functions c, ∃ e, Copied s e f) : ApiMade c := by
  refine ⟨fun f hf r hr ho => ?_, hopt ▸ (flags_optionsOf s).1⟩
  obtain ⟨e, he⟩ := h f hf
  obtain ⟨qs, _, hp⟩ := he.rows
  obtain ⟨q, _, rfl⟩ := List.mem_map.1 (hp.mem_iff.1 hr)
  unfold again storedRow rowAgain readingIn at ho ⊢
  simp only [FrameRowBuilder.mangledRaP] at ho ⊢
  cases hc : q.cfaOffset with
  | error => simp [FrameRowBuilder.invalid]
  | ok => rw [hc] at ho; simp [FrameRowBuilder.new] at ho

theorem kept_fn {o' : Endian} {s : SFrame o} {e : FuncDescEntry o} {s' : SFrame o'} {e' : FuncDescEntry o'}
    {f : FuncDescBuilder} (hc : Copied s e f) (he : Emitted s' e' f) : KeptFn s e s' e' := by
  obtain ⟨qs, hq, hp⟩ := hc.rows
  have hmem : ∀ r ∈ rows f, ∃ q ∈ qs, again s q = r := fun r hr => List.mem_map.1 (hp.mem_iff.1 hr)
  have hrow := rows_told he (fun r hr => by
      obtain ⟨q, hq', rfl⟩ := hmem r hr
      rw [again_start, hc.size]
      rw [FuncDescEntry.collect_eq] at hq
      exact read_inside hq q (List.mem_map_of_mem hq'))
    (fun r hr => by
      obtain ⟨q, _, rfl⟩ := hmem r hr
      rw [hc.options]
      exact again_ordered s q)
  refine ⟨by rw [he.start, hc.start], by rw [he.size, hc.size], by rw [he.key, hc.key], fun h => ?_, fun h => ?_,
    qs.map (told s), (rows f).map (toldBy f.options), ⟨qs, hq, rfl⟩, ?_, ?_, ?_⟩
  · rw [he.fdetype, hc.rep, if_pos h]; rfl
  · rw [he.fdetype, he.rep, hc.rep, if_neg h]; exact ⟨rfl, rfl⟩
  · refine (hp.map _).trans ?_
    rw [List.map_map, hc.options]
    rw [show (toldBy (optionsOf s) ∘ again s) = told s from funext (toldBy_again s)]
  · rw [List.pairwise_map]
    exact rows_ascending hc.inv
  · rw [hrow]
    constructor
    · intro h t ht
      obtain ⟨q, hq', rfl⟩ := List.mem_map.1 ht
      rw [← values_again]
      exact h _ (hp.mem_iff.2 (List.mem_map_of_mem hq'))
    · intro h r hr
      obtain ⟨q, hq', rfl⟩ := hmem r hr
      rw [values_again]
      exact h _ (List.mem_map_of_mem hq')

/-! ### C113 -/

theorem lastAt_mem {es : List (FuncDescEntry o)} {a : I32} {e : FuncDescEntry o} (h : lastAt es a = some e) :
    e ∈ es ∧ e.startAddress = a := by
  have := List.mem_of_getLast? h
  simpa using this

theorem lastAt_some {es : List (FuncDescEntry o)} {e : FuncDescEntry o} (h : e ∈ es) :
    ∃ x, lastAt es e.startAddress = some x := by
  have : e ∈ es.filter fun x => decide (x.startAddress = e.startAddress) := by simp [h]
  cases hx : lastAt es e.startAddress with
  | some x => exact ⟨x, rfl⟩
  | none =>
    unfold lastAt at hx
    rw [List.getLast?_eq_none_iff] at hx
    rw [hx] at this
    cases this

/-- **C113**, what holds: if a section, of any version and made by any program, is loaded and built anew through the
public functions, the new section has the same header, in version 2; its functions are in order of start, and are
the functions of the old one, the last one where several start at the same address; and the rows of each are in order
of start, and tell the same as in the old section exactly if none of them has a width tie.
Missing: the rows of a function in which one has a width tie. -/
theorem C113_keeps_partial (dbg : Bool) (o o' : Endian) (bytes : List U8) (c : SFrameBuilder) (out : List U8)
    (h : rewrite o bytes = .ok (.ok c)) (hb : c.build dbg o' = .ok (.ok out)) :
    ∃ s es s' es', SFrame.load o bytes = .ok (.ok s) ∧ s.iter.collect = .ok es ∧
      SFrame.load o' out = .ok (.ok s') ∧ s'.iter.collect = .ok es' ∧ KeptHeader s s' ∧
      es'.Pairwise (fun e e' => e.startAddress.toInt < e'.startAddress.toInt) ∧
      (∀ a, (lastAt es a).isSome ↔ ∃ e' ∈ es', e'.startAddress = a) ∧
      ∀ e' ∈ es', ∃ e, lastAt es e'.startAddress = some e ∧ KeptFn s e s' e' := by
  unfold rewrite at h
  obtain ⟨r, hload, h⟩ := Rust.bind_eq_ok.1 h
  cases r with
  | error => cases h
  | ok s =>
    simp only at h
    obtain ⟨es, hes, h⟩ := Rust.bind_eq_ok.1 h
    have hreach := copyFunctions_reachable (d := dbg) (.new _) h
    obtain ⟨hinv, hopt, hat⟩ := copyFunctions_ok (SFrameBuilder.Reachable.new (dbg := dbg) (optionsOf s)).inv rfl h
    have hfun : ∀ f ∈ functions c, ∃ e, lastAt es f.startAddress = some e ∧ Copied s e f := by
      intro f hf
      obtain ⟨⟨k, f⟩, hm, rfl⟩ := List.mem_map.1 hf
      have hk : k = f.startAddress := hinv.key _ hm
      have hg := (BMap.get_eq_some_iff injI32 hinv.sorted).2 hm
      have ha := hat f.startAddress
      rw [hk] at hg
      cases hla : lastAt es f.startAddress with
      | none => rw [hla] at ha; simp only at ha; rw [hg] at ha; cases ha
      | some e =>
        rw [hla] at ha
        simp only at ha
        obtain ⟨g, hg', hc⟩ := ha
        cases hg.symm.trans hg'
        exact ⟨e, rfl, hc⟩
    have hmade : ApiMade c := copied_made hopt fun f hf => (hfun f hf).imp fun _ h => h.2
    obtain ⟨rfl, _, hfits⟩ := build_ok hinv hb
    obtain ⟨ps, h1, h2, h3⟩ := emitted (o := o') hreach hmade hfits
    obtain ⟨g2, g1⟩ := readBack_fixed (o := o') c
    have hfl := (flags_optionsOf s).2
    have hasc := functions_ascending hinv
    rw [h2] at hasc
    unfold FunctionsAscending at hasc
    rw [List.pairwise_map] at hasc
    refine ⟨s, es, readBack o' c, ps.map Prod.fst, hload, hes, load_image o' c hfits, h1,
      ⟨rfl, ?_, ?_, ?_, ?_, ?_⟩, ?_, fun a => ⟨fun ha => ?_, ?_⟩, ?_⟩
    · show c.options.abiArch = s.abi
      rw [hopt]; rfl
    · rw [g1, hopt]; exact fixedRa_optionsOf s
    · rw [g2, hopt]; exact fixedFp_optionsOf s
    · show c.options.flags.getLsbD 0 = true
      rw [hopt]; exact hfl.1
    · show c.options.flags.getLsbD 1 = _
      rw [hopt]; exact hfl.2
    · rw [List.pairwise_map]
      refine hasc.imp_of_mem fun {p q} hp hq hpq => ?_
      rw [(h3 p hp).start, (h3 q hq).start]
      exact hpq
    · obtain ⟨e, he⟩ := Option.isSome_iff_exists.1 ha
      have ha := hat a
      rw [he] at ha
      simp only at ha
      obtain ⟨f, hf, hc⟩ := ha
      have hm := (BMap.get_eq_some_iff injI32 hinv.sorted).1 hf
      have hm : f ∈ functions c := List.mem_map_of_mem hm
      rw [h2] at hm
      obtain ⟨p, hp, rfl⟩ := List.mem_map.1 hm
      refine ⟨p.1, List.mem_map_of_mem hp, ?_⟩
      rw [(h3 p hp).start, hc.start, (lastAt_mem he).2]
    · rintro ⟨e', he', rfl⟩
      obtain ⟨p, hp, rfl⟩ := List.mem_map.1 he'
      obtain ⟨e, he, _⟩ := hfun p.2 (h2 ▸ List.mem_map_of_mem hp)
      rw [(h3 p hp).start, he]
      rfl
    · intro e' he'
      obtain ⟨p, hp, rfl⟩ := List.mem_map.1 he'
      obtain ⟨e, he, hc⟩ := hfun p.2 (h2 ▸ List.mem_map_of_mem hp)
      exact ⟨e, by rw [(h3 p hp).start, he], kept_fn hc (h3 p hp)⟩

/-! ### What is taken -/

theorem copyRows_takes {s : SFrame o} (qs : List (FrameRowEntry o)) {f : FuncDescBuilder} (hi : FdeInv f)
    (hopt : f.options = optionsOf s) (hrep : f.repSize = none)
    (hin : ∀ q ∈ qs, q.startAddressOffset.toNat < f.size.toNat) :
    (∃ g, copyRows f ((qs.map Except.ok).map (·.map (readingIn s))) = .ok g) ↔
      (∀ q ∈ qs, q.startAddressOffset.toNat < 2 ^ 28) ∧ (qs.map (·.startAddressOffset)).Nodup ∧
      ∀ r ∈ rows f, ∀ q ∈ qs, r.startAddress ≠ q.startAddressOffset := by
  induction qs generalizing f with
  | nil => simp [copyRows]
  | cons q qs ih =>
    simp only [List.map_cons]
    rw [show (Except.ok q : Except ReadError (FrameRowEntry o)).map (readingIn s) = .ok (readingIn s q) from rfl]
    simp only [copyRows]
    have hrow := row_spec hi (rowAgain (readingIn s q))
    obtain ⟨h4, h5⟩ := again_allowed s q
    have he : rowError f (rowAgain (readingIn s q)) =
        if ¬ q.startAddressOffset.toNat < 2 ^ 28 then some .startAddressTooLarge
        else if ¬ ((rows f).all fun r => decide (r.startAddress ≠ q.startAddressOffset)) = true then some .duplicateRow
        else none := by
      rw [rowError_cases, rowAgain_start, hopt, h4, h5, hrep]
      have := hin q (by simp)
      simp [this]
    rw [he] at hrow
    by_cases hbig : q.startAddressOffset.toNat < 2 ^ 28
    · rw [if_neg (by simpa using hbig)] at hrow
      by_cases hdup : ((rows f).all fun r => decide (r.startAddress ≠ q.startAddressOffset)) = true
      · rw [if_neg (by simpa using hdup)] at hrow
        simp only at hrow
        have hi' := hi.row hrow
        rw [hrow]
        simp only
        rw [ih hi' hopt hrep (fun x hx => hin x (by simp [hx]))]
        have hd : ∀ r ∈ rows f, r.startAddress ≠ q.startAddressOffset := by
          simpa only [List.all_eq_true, decide_eq_true_eq] using hdup
        have hnew : ∀ e ∈ f.fres, ordU32 e.1 ≠ ordU32 (rowAgain (readingIn s q)).startAddress := by
          intro e hmem heq
          rw [ordU32_inj, hi.key e hmem, rowAgain_start] at heq
          exact hd e.2 (List.mem_map_of_mem hmem) heq
        have hp := (insert_perm (v := storedRow f.options (rowAgain (readingIn s q))) hnew).map Prod.snd
        have hs : (storedRow f.options (rowAgain (readingIn s q))).startAddress = q.startAddressOffset := by
          rw [hopt]; exact again_start s q
        have hmem : ∀ r, r ∈ rows { f with fres := (f.fres.insert ordU32 (rowAgain (readingIn s q)).startAddress
              (storedRow f.options (rowAgain (readingIn s q)))) } ↔
            r = storedRow f.options (rowAgain (readingIn s q)) ∨ r ∈ rows f := by
          intro r
          show r ∈ List.map Prod.snd _ ↔ _
          rw [hp.mem_iff]
          simp [rows]
        simp only [List.nodup_cons, List.mem_map, not_exists, not_and, List.forall_mem_cons]
        constructor
        · rintro ⟨a1, a2, a3⟩
          refine ⟨⟨hbig, a1⟩, ⟨fun x hx hxq => ?_, a2⟩, fun r hr => ⟨hd r hr, a3 r ((hmem r).2 (.inr hr))⟩⟩
          exact a3 _ ((hmem _).2 (.inl rfl)) x hx (by rw [hs, hxq])
        · rintro ⟨⟨_, a1⟩, ⟨a0, a2⟩, a3⟩
          refine ⟨a1, a2, fun r hr x hx => ?_⟩
          rcases (hmem r).1 hr with rfl | hr
          · rw [hs]; exact fun h => a0 x hx h.symm
          · exact (a3 r hr).2 x hx
      · rw [if_pos (by simpa using hdup)] at hrow
        simp only at hrow
        rw [hrow]
        refine ⟨by simp, fun ⟨_, _, h⟩ => absurd ?_ hdup⟩
        simp only [List.all_eq_true, decide_eq_true_eq]
        exact fun r hr => h r hr q (by simp)
    · rw [if_pos (by simpa using hbig)] at hrow
      simp only at hrow
      rw [hrow]
      exact ⟨by simp, fun ⟨h, _⟩ => absurd (h q (by simp)) hbig⟩

theorem copyFunction_takes {s : SFrame o} {e : FuncDescEntry o} {l : List (Except ReadError (FrameRowEntry o))}
    (hl : e.iter.collect = .ok l) :
    (∃ f, copyFunction (optionsOf s) e (l.map (·.map (readingIn s))) = .ok f) ↔ Copyable e := by
  have h1 : (∃ f, copyFunction (optionsOf s) e (l.map (·.map (readingIn s))) = .ok f) ↔
      ∃ g, copyRows (FuncDescBuilder.new (optionsOf s) e.startAddress e.size) (l.map (·.map (readingIn s))) = .ok g := by
    unfold copyFunction
    cases copyRows (FuncDescBuilder.new (optionsOf s) e.startAddress e.size) (l.map (·.map (readingIn s))) <;> simp
  have hinv : FdeInv (FuncDescBuilder.new (optionsOf s) e.startAddress e.size) := (FuncDescBuilder.Reachable.new _ _ _).inv
  have hin : ∀ q, .ok q ∈ l → q.startAddressOffset.toNat < e.size.toNat := by
    rw [FuncDescEntry.collect_eq] at hl
    exact read_inside hl
  rw [h1]
  constructor
  · rintro ⟨g, hg⟩
    obtain ⟨qs, rfl, _⟩ := copyRows_ok hinv rfl hg
    have := (copyRows_takes qs hinv rfl rfl (fun q hq => hin q (List.mem_map_of_mem hq))).1 ⟨g, hg⟩
    exact ⟨qs, hl, this.2.1, this.1⟩
  · rintro ⟨qs, hq, h2, h3⟩
    cases hl.symm.trans hq
    exact (copyRows_takes qs hinv rfl rfl (fun q hq => hin q (List.mem_map_of_mem hq))).2
      ⟨h3, h2, by simp [FuncDescBuilder.new, rows]⟩

theorem copyFunctions_takes {s : SFrame o} (es : List (FuncDescEntry o)) {b : SFrameBuilder}
    (hopt : b.options = optionsOf s) :
    (∃ c, copyFunctions s b es = .ok (.ok c)) ↔ ∀ e ∈ es, Copyable e := by
  induction es generalizing b with
  | nil => simp [copyFunctions]
  | cons e es ih =>
    simp only [copyFunctions, List.forall_mem_cons]
    cases hl : e.iter.collect with
    | ok l =>
      rw [← copyFunction_takes (s := s) hl]
      simp only [Rust.bind_ok]
      cases hf : copyFunction (optionsOf s) e (l.map (·.map (readingIn s))) with
      | error => simp
      | ok f =>
        have hc := copyFunction_ok hl hf
        simp only [SFrameBuilder.fde]
        rw [if_pos (by rw [hopt, hc.options]), Rust.bind_ok]
        refine (ih (b := { b with fdes := b.fdes.insert ordI32 f.startAddress f }) hopt).trans ?_
        simp
    | panic p =>
      refine ⟨fun h => (by cases h.choose_spec), ?_⟩
      rintro ⟨⟨rs, h, _⟩, _⟩
      rw [hl] at h
      cases h
    | diverge =>
      refine ⟨fun h => (by cases h.choose_spec), ?_⟩
      rintro ⟨⟨rs, h, _⟩, _⟩
      rw [hl] at h
      cases h

/-- **C113.**  The builder takes over a section exactly if it loads and, in each function, all rows can be read, no two
start at the same place and none starts at 2^28 or later. -/
theorem C113_accepts (o : Endian) (bytes : List U8) :
    (∃ c, rewrite o bytes = .ok (.ok c)) ↔
      ∃ s es, SFrame.load o bytes = .ok (.ok s) ∧ s.iter.collect = .ok es ∧ ∀ e ∈ es, Copyable e := by
  unfold rewrite
  constructor
  · rintro ⟨c, h⟩
    obtain ⟨r, hload, h⟩ := Rust.bind_eq_ok.1 h
    cases r with
    | error => cases h
    | ok s =>
      simp only at h
      obtain ⟨es, hes, h⟩ := Rust.bind_eq_ok.1 h
      exact ⟨s, es, hload, hes, (copyFunctions_takes (s := s) (b := SFrameBuilder.new (optionsOf s)) es rfl).1 ⟨c, h⟩⟩
  · rintro ⟨s, es, h1, h2, h3⟩
    rw [h1, Rust.bind_ok]
    simp only
    rw [h2, Rust.bind_ok]
    exact (copyFunctions_takes es rfl).2 h3

namespace Samples

/-- A big-endian section of version 1: a function at 0x20, one at 0x10 whose rows are not in order, and again one at
0x20. -/
def outOfOrder : List U8 := [
  0xDE, 0xE2, 1, 2,  1, 0, 0, 0,  0, 0, 0, 3,  0, 0, 0, 4,  0, 0, 0, 13,  0, 0, 0, 0,  0, 0, 0, 51,
  0, 0, 0, 0x20,  0, 0, 0, 0x10,  0, 0, 0, 0,  0, 0, 0, 1,  0,
  0, 0, 0, 0x10,  0, 0, 0, 0x08,  0, 0, 0, 3,  0, 0, 0, 2,  0,
  0, 0, 0, 0x20,  0, 0, 0, 0x18,  0, 0, 0, 10,  0, 0, 0, 1,  0,
  0, 3, 8,  4, 5, 16, 0xF8,  0, 3, 8,  0, 3, 24]

/-- What comes out, little-endian. -/
def inOrder : List U8 := [
  0xE2, 0xDE, 2, 3,  1, 0, 0, 0,  2, 0, 0, 0,  3, 0, 0, 0,  10, 0, 0, 0,  0, 0, 0, 0,  40, 0, 0, 0,
  0x10, 0, 0, 0,  0x08, 0, 0, 0,  0, 0, 0, 0,  2, 0, 0, 0,  0, 0, 0, 0,
  0x20, 0, 0, 0,  0x18, 0, 0, 0,  7, 0, 0, 0,  1, 0, 0, 0,  0, 0, 0, 0,
  0, 3, 8,  4, 5, 16, 0xF8,  0, 3, 24]

/-- A section with one row, CFA offset -128 and RA offset 128, each in two bytes. -/
def tieWide : List U8 := [
  0xE2, 0xDE, 2, 1,  3, 0, 0, 0,  1, 0, 0, 0,  1, 0, 0, 0,  6, 0, 0, 0,  0, 0, 0, 0,  20, 0, 0, 0,
  0x00, 0x10, 0, 0,  0x20, 0, 0, 0,  0, 0, 0, 0,  1, 0, 0, 0,  0, 0, 0, 0,
  0, 0x25, 0x80, 0xFF, 0x80, 0]

/-- What comes out: each in one byte. -/
def tieNarrow : List U8 := [
  0xE2, 0xDE, 2, 1,  3, 0, 0, 0,  1, 0, 0, 0,  1, 0, 0, 0,  4, 0, 0, 0,  0, 0, 0, 0,  20, 0, 0, 0,
  0x00, 0x10, 0, 0,  0x20, 0, 0, 0,  0, 0, 0, 0,  1, 0, 0, 0,  0, 0, 0, 0,
  0, 5, 0x80, 0x80]

/-- What a program does that rewrites a section. -/
def rewritten (dbg : Bool) (o o' : Endian) (bytes : List U8) : Rust (Except RewriteError (Except EmitError (List U8))) :=
  (rewrite o bytes).bind fun
  | .error e => .ok (.error e)
  | .ok c => (c.build dbg o').bind fun r => .ok (.ok r)

end Samples

/-- **C113**, the negation: a valid section whose rewriting changes what its row tells, without an error: the RA offset
is 128 before and -128 after. -/
theorem C113_tie_changes (dbg : Bool) :
    Samples.rewritten dbg .little .little Samples.tieWide = .ok (.ok (.ok Samples.tieNarrow)) ∧
    readAll .little Samples.tieWide = .ok (.ok [[.ok ⟨0, .sp, false, .ok (-128), .ok 128, .error .missingFreOffset⟩]]) ∧
    readAll .little Samples.tieNarrow =
      .ok (.ok [[.ok ⟨0, .sp, false, .ok (-128), .ok (-128), .error .missingFreOffset⟩]]) := by
  cases dbg <;> decide +kernel

/-- A section that is taken over, with functions and rows that are not in order. -/
example (dbg : Bool) :
    Samples.rewritten dbg .big .little Samples.outOfOrder = .ok (.ok (.ok Samples.inOrder)) ∧
    readAll .big Samples.outOfOrder = .ok (.ok [
      [.ok ⟨0, .sp, false, .ok 8, .error .missingFreOffset, .error .missingFreOffset⟩],
      [.ok ⟨4, .sp, false, .ok 16, .ok (-8), .error .missingFreOffset⟩,
       .ok ⟨0, .sp, false, .ok 8, .error .missingFreOffset, .error .missingFreOffset⟩],
      [.ok ⟨0, .sp, false, .ok 24, .error .missingFreOffset, .error .missingFreOffset⟩]]) ∧
    readAll .little Samples.inOrder = .ok (.ok [
      [.ok ⟨0, .sp, false, .ok 8, .error .missingFreOffset, .error .missingFreOffset⟩,
       .ok ⟨4, .sp, false, .ok 16, .ok (-8), .error .missingFreOffset⟩],
      [.ok ⟨0, .sp, false, .ok 24, .error .missingFreOffset, .error .missingFreOffset⟩]]) := by
  cases dbg <;> decide +kernel

/-- Sections that are not taken over: two rows that start at the same place; and a row that cannot be read. -/
example (dbg : Bool) :
    Samples.rewritten dbg .big .little (Samples.outOfOrder.set 82 0) = .ok (.error (.row .duplicateRow)) ∧
    Samples.rewritten dbg .big .little (Samples.outOfOrder.set 80 0x63) = .ok (.error (.read (.unsupportedFreOffset .reserved3))) := by
  cases dbg <;> decide +kernel

end Verif
