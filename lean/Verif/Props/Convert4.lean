import Verif.Props.Convert3
/-!
# The converter: order of the input (C80), what of a row matters (C81), moving functions (C82)
-/

namespace Verif
open Spec

/-! ### C80 -/

namespace Spec

/-- The entry is not a CIE. -/
def notCie : Except GErr Entry → Bool
  | .ok .cie => false
  | _ => true

end Spec

theorem inputs_filter (eh : EhFrame) (bases : Bases) :
    inputs eh bases = ((eh.entries bases).filter notCie).filterMap fun
      | .error e => some (.error (.invalidEhFrameEntry e))
      | .ok .cie => none
      | .ok (.fde off parse) =>
        match parse (eh.cieFromOffset bases off) with
        | .error e => some (.error (.invalidDwarfFde e))
        | .ok fde => some (.ok fde) := by
  unfold inputs
  rw [List.filterMap_filter]
  congr 1
  funext x
  rcases x with e | _ | _ <;> rfl

theorem inputs_perm {eh eh' : EhFrame} {bases : Bases}
    (hcie : eh'.cieFromOffset bases = eh.cieFromOffset bases)
    (hp : ((eh'.entries bases).filter notCie).Perm ((eh.entries bases).filter notCie)) :
    (inputs eh' bases).Perm (inputs eh bases) := by
  rw [inputs_filter, inputs_filter, hcie]
  exact hp.filterMap _

theorem perm_map_ok {xs : List (Except ConvError DwFde)} {fdes : List DwFde}
    (h : xs.Perm (fdes.map .ok)) : ∃ fdes' : List DwFde, xs = fdes'.map .ok ∧ fdes'.Perm fdes := by
  have hx : ∀ x ∈ xs, ∃ f, x = Except.ok f := fun x hx => by
    obtain ⟨f, _, rfl⟩ := List.mem_map.1 (h.mem_iff.1 hx)
    exact ⟨f, rfl⟩
  refine ⟨xs.filterMap Except.toOption, ?_, ?_⟩
  · clear h
    induction xs with
    | nil => rfl
    | cons x xs ih =>
      obtain ⟨f, rfl⟩ := hx x (by simp)
      rw [List.filterMap_cons]
      simp only [Except.toOption, List.map_cons]
      rw [← ih fun y hy => hx y (by simp [hy])]
  · have := h.filterMap Except.toOption
    rwa [List.filterMap_map, show (Except.toOption ∘ (Except.ok : DwFde → Except ConvError DwFde)) = some from rfl,
      List.filterMap_some] at this

theorem find_reverse_perm {fdes fdes' : List DwFde} (p : DwFde → Bool) (hp : fdes'.Perm fdes)
    (hu : ∀ f ∈ fdes, ∀ g ∈ fdes, p f = true → p g = true → f = g) :
    fdes'.reverse.find? p = fdes.reverse.find? p := by
  have hmem : ∀ l : List DwFde, ∀ f, l.reverse.find? p = some f → f ∈ l ∧ p f = true := fun l f h =>
    ⟨List.mem_reverse.1 (List.mem_of_find?_eq_some h), List.find?_some h⟩
  cases h : fdes.reverse.find? p with
  | none =>
    rw [List.find?_eq_none] at h ⊢
    exact fun f hf => h f (List.mem_reverse.2 (hp.mem_iff.1 (List.mem_reverse.1 hf)))
  | some f =>
    cases h' : fdes'.reverse.find? p with
    | none =>
      rw [List.find?_eq_none] at h'
      obtain ⟨h1, h2⟩ := hmem _ _ h
      exact absurd h2 (h' f (List.mem_reverse.2 (hp.mem_iff.2 h1)))
    | some f' =>
      obtain ⟨h1, h2⟩ := hmem _ _ h
      obtain ⟨h3, h4⟩ := hmem _ _ h'
      rw [hu f' (hp.mem_iff.1 h3) f h1 h4 h2]

theorem pairwise_ne {fdes : List DwFde} (h : fdes.Pairwise fun f g => f.initial ≠ g.initial) {f g : DwFde}
    (hf : f ∈ fdes) (hg : g ∈ fdes) (he : f.initial = g.initial) : f = g := by
  induction fdes with
  | nil => cases hf
  | cons a l ih =>
    rw [List.pairwise_cons] at h
    rcases List.mem_cons.1 hf with hf' | hf' <;> rcases List.mem_cons.1 hg with hg' | hg'
    · rw [hf', hg']
    · subst hf'; exact absurd he (h.1 _ hg')
    · subst hg'; exact absurd he.symm (h.1 _ hf')
    · exact ih h.2 hf' hg'

theorem sectionOptions_congr {eh eh' : EhFrame} (opts : Options) (h : eh'.bigEndian = eh.bigEndian) :
    sectionOptions eh' opts = sectionOptions eh opts := by
  unfold sectionOptions chooseAbi
  rw [h]

/-- **C80.**  The order of the entries and the CIEs among them do not matter: of two sections with the
same FDEs in different order, the converter succeeds on both or on neither, and if the functions start
at different addresses, the results are equal. -/
theorem C80_any_order (dbg : Bool) (eh eh' : EhFrame) (opts : Options)
    (hend : eh'.bigEndian = eh.bigEndian)
    (hcie : eh'.cieFromOffset opts.bases = eh.cieFromOffset opts.bases)
    (hp : ((eh'.entries opts.bases).filter notCie).Perm ((eh.entries opts.bases).filter notCie)) :
    ((∃ b, dwarf2sframe dbg eh' opts = .ok (.ok b)) ↔ ∃ b, dwarf2sframe dbg eh opts = .ok (.ok b)) ∧
    ∀ b, dwarf2sframe dbg eh opts = .ok (.ok b) →
      ((inputs eh opts.bases).filterMap Except.toOption).Pairwise (fun f g => f.initial ≠ g.initial) →
      dwarf2sframe dbg eh' opts = .ok (.ok b) := by
  have hperm := inputs_perm hcie hp
  have key : ∀ {xs ys : EhFrame} {b}, (inputs ys opts.bases).Perm (inputs xs opts.bases) →
      sectionOptions ys opts = sectionOptions xs opts → dwarf2sframe dbg xs opts = .ok (.ok b) →
      ∃ fdes fdes', inputs xs opts.bases = fdes.map .ok ∧ fdes'.Perm fdes ∧
        (∀ f ∈ fdes, Convertible (sectionOptions xs opts) opts f) ∧
        b = outputOf (sectionOptions xs opts) opts fdes ∧
        dwarf2sframe dbg ys opts = .ok (.ok (outputOf (sectionOptions xs opts) opts fdes')) := by
    intro xs ys b hq hs h
    obtain ⟨fdes, hin, hc, rfl⟩ := dwarf2sframe_ok_iff.1 h
    rw [hin] at hq
    obtain ⟨fdes', hin', hq'⟩ := perm_map_ok hq
    refine ⟨fdes, fdes', hin, hq', hc, rfl, ?_⟩
    rw [← hs]
    exact dwarf2sframe_ok_iff.2 ⟨fdes', hin', fun f hf => hs ▸ hc f (hq'.mem_iff.1 hf), rfl⟩
  have hso := sectionOptions_congr opts hend
  refine ⟨⟨?_, ?_⟩, ?_⟩
  · rintro ⟨b, h⟩
    obtain ⟨_, _, _, _, _, _, h'⟩ := key hperm.symm hso.symm h
    exact ⟨_, h'⟩
  · rintro ⟨b, h⟩
    obtain ⟨_, _, _, _, _, _, h'⟩ := key hperm hso h
    exact ⟨_, h'⟩
  · intro b h hd
    obtain ⟨fdes, fdes', hin, hq, hc, rfl, h'⟩ := key hperm hso h
    rw [h']
    have hd' : fdes.Pairwise fun f g => f.initial ≠ g.initial := by
      rw [hin, List.filterMap_map,
        show (Except.toOption ∘ (Except.ok : DwFde → Except ConvError DwFde)) = some from rfl,
        List.filterMap_some] at hd
      exact hd
    have heq : addAll (sectionOptions eh opts) opts [] fdes' = addAll (sectionOptions eh opts) opts [] fdes := by
      have hsort : ∀ l, (addAll (sectionOptions eh opts) opts [] l).Sorted ordI32 := fun l =>
        output_sorted (b := SFrameBuilder.new _) (by simp [SFrameBuilder.new, BMap.Sorted])
      refine BMap.ext (ord := ordI32) (fun {_ _} h => ordI32_inj.1 h) (hsort _) (hsort _) fun k => ?_
      rw [addAll_get _ _ _ (by simp [BMap.Sorted]), addAll_get _ _ _ (by simp [BMap.Sorted]),
        find_reverse_perm _ hq]
      intro f hf g hg h1 h2
      have h1 := of_decide_eq_true h1
      have h2 := of_decide_eq_true h2
      have he : f.initial = g.initial := by
        have h3 : (f.initial.setWidth 32 : I32) = g.initial.setWidth 32 := h1.trans h2.symm
        have := setWidth_toInt (hc f hf).start
        have := setWidth_toInt (hc g hg).start
        rw [h3] at *
        exact BitVec.eq_of_toNat_eq (by omega)
      exact pairwise_ne hd' hf hg he
    unfold outputOf SFrameBuilder.more
    simp only [SFrameBuilder.new]
    rw [heq]

/-- Two functions in both orders, with and without a CIE in front. -/
example (dbg : Bool) :
    let fde : DwFde := { Samples.dwFde with initial := 0, rows := .ok [.ok { Samples.dwRow1 with start := 0, end_ := 5 }] }
    let eh := Samples.ehOf [Samples.dwFde, fde]
    let eh' : EhFrame := { eh with entries := fun b => ((Samples.ehOf [fde, Samples.dwFde]).entries b).drop 1 }
    dwarf2sframe dbg eh Samples.convOpts = .ok (.ok { options := Samples.opts, fdes := [(0,
      { Samples.convFn with startAddress := 0, fres := [(0, ⟨0, some ⟨8, none, none⟩, false, .sp⟩)] }),
      (0x1000, Samples.convFn)] }) ∧
    dwarf2sframe dbg eh' Samples.convOpts = dwarf2sframe dbg eh Samples.convOpts := by
  cases dbg <;> decide +kernel

/-! ### C81 -/

namespace Spec

/-- What matters of a row: where it starts, whether it is empty, the rule for the CFA (any expression
is as good as any other) and the rules for the frame pointer and the return address. -/
def essential (arch : Architecture) (row : DwRow) : DwRow :=
  { start := row.start
    end_ := if row.start = row.end_ then row.start else row.start + 1
    cfa := match row.cfa with
      | .expression _ => .expression []
      | rule => rule
    registers := [(BitVec.ofNat 16 (fpNum arch), row.register (BitVec.ofNat 16 (fpNum arch))),
      (BitVec.ofNat 16 (raNum arch), row.register (BitVec.ofNat 16 (raNum arch)))] }

/-- What matters of a function: where it starts, its length, what matters of its rows and, if they are
to be dumped, its instructions. -/
def essentialFde (opts : Options) (fde : DwFde) : DwFde :=
  { initial := fde.initial
    len := fde.len
    instructions := if opts.debugdump then fde.instructions else []
    rows := fde.rows.map fun xs => xs.map (·.map (essential opts.arch)) }

/-- A section in which every function is replaced. -/
def mapFdes (g : DwFde → DwFde) (eh : EhFrame) : EhFrame :=
  { eh with entries := fun bases => (eh.entries bases).map fun
      | .ok (.fde off parse) => .ok (.fde off fun cie => (parse cie).map g)
      | e => e }

end Spec

theorem inputs_mapFdes (g : DwFde → DwFde) (eh : EhFrame) (bases : Bases) :
    inputs (mapFdes g eh) bases = (inputs eh bases).map (·.map g) := by
  unfold inputs mapFdes
  simp only
  rw [List.filterMap_map, List.map_filterMap]
  congr 1
  funext x
  rcases x with e | _ | ⟨off, parse⟩
  · rfl
  · rfl
  · simp only [Function.comp]
    cases parse (eh.cieFromOffset bases off) <;> rfl

theorem dwarf2sframeLog_inputs (dbg : Bool) (eh : EhFrame) (opts : Options) :
    dwarf2sframeLog dbg eh opts =
      (convertInputs dbg opts (inputs eh opts.bases) (SFrameBuilder.new (sectionOptions eh opts)) []).bind fun
      | .error e => .ok (.error e)
      | .ok (b, log) => (if opts.mergeFdes then b.mergeAdjacentFdes dbg else .ok b).bind fun b =>
          .ok (.ok (b, log)) := by
  have heq := convertEntries_eq dbg opts eh (eh.entries opts.bases)
    { sframe := SFrameBuilder.new (sectionOptions eh opts), cies := [], log := [] } (by simp [CacheOk])
  have hin : inputs { eh with entries := fun _ => eh.entries opts.bases } opts.bases
      = inputs eh opts.bases := rfl
  rw [hin] at heq
  rw [← heq]
  unfold dwarf2sframeLog
  generalize convertEntries dbg opts eh _ _ = r
  rcases r with (e | st) | p | _ <;> rfl

theorem essential_register (arch : Architecture) (row : DwRow) :
    (essential arch row).register arch.fp = row.register arch.fp ∧
    (essential arch row).register arch.ra = row.register arch.ra := by
  constructor <;> cases arch <;> rfl

theorem convertRow_essential (dbg : Bool) (opts : Options) (fde : DwFde) (row : DwRow) :
    convertRow dbg opts (essentialFde opts fde) (essential opts.arch row) = convertRow dbg opts fde row := by
  have hw : ∀ {α : Type} msg, warnErr (α := α) dbg opts (essentialFde opts fde) (essential opts.arch row) msg
      = warnErr dbg opts fde row msg := fun _ => rfl
  have h1 : cfaOf dbg opts (essentialFde opts fde) (essential opts.arch row) = cfaOf dbg opts fde row := by
    unfold cfaOf
    simp only [hw]
    unfold essential
    simp only
    cases row.cfa <;> rfl
  have h2 : fpOf dbg opts (essentialFde opts fde) (essential opts.arch row) = fpOf dbg opts fde row := by
    unfold fpOf
    rw [(essential_register _ _).1]
    rfl
  have h3 : raOf dbg opts (essentialFde opts fde) (essential opts.arch row) = raOf dbg opts fde row := by
    unfold raOf
    rw [(essential_register _ _).2]
    rfl
  unfold convertRow
  rw [h1, h2, h3]
  rfl

theorem essential_empty (arch : Architecture) (row : DwRow) :
    (essential arch row).start = (essential arch row).end_ ↔ row.start = row.end_ := by
  unfold essential
  simp only
  by_cases h : row.start = row.end_
  · simp [h]
  · rw [if_neg h]
    refine iff_of_false ?_ h
    intro h'
    have h1 := congrArg BitVec.toNat h'
    have h2 : (row.start + 1).toNat = (row.start.toNat + 1) % 2 ^ 64 := BitVec.toNat_add ..
    rw [h2] at h1
    have := row.start.isLt
    omega

theorem convertRows_essential (dbg : Bool) (opts : Options) (fde : DwFde) (xs : List (Except GErr DwRow))
    (sfde : FuncDescBuilder) (log : List Warning) :
    convertRows dbg opts (essentialFde opts fde) (xs.map (·.map (essential opts.arch))) sfde log
      = convertRows dbg opts fde xs sfde log := by
  induction xs generalizing sfde log with
  | nil => rfl
  | cons x xs ih =>
    cases x with
    | error e => rfl
    | ok r =>
      show convertRows dbg opts (essentialFde opts fde) (.ok (essential opts.arch r) ::
        xs.map (·.map (essential opts.arch))) sfde log = _
      rw [convertRows, convertRows, convertRow_essential]
      simp only [essential_empty, ih]
      rfl

theorem convertFde_essential (dbg : Bool) (opts : Options) (st : ConvState) (fde : DwFde) :
    convertFde dbg opts st (essentialFde opts fde) = convertFde dbg opts st fde := by
  have h1 : (if opts.debugdump then
      (addU64 dbg fde.initial fde.len).bind fun _ =>
        Rust.ok (dumpCfiInstructions (if opts.debugdump then fde.instructions else []))
      else .ok (.ok ())) = (if opts.debugdump then
      (addU64 dbg fde.initial fde.len).bind fun _ => Rust.ok (dumpCfiInstructions fde.instructions)
      else .ok (.ok ())) := by
    cases opts.debugdump <;> rfl
  unfold convertFde
  have h2 : (essentialFde opts fde).rows = fde.rows.map fun xs => xs.map (·.map (essential opts.arch)) := rfl
  rw [h2]
  simp only [show (essentialFde opts fde).initial = fde.initial from rfl,
    show (essentialFde opts fde).len = fde.len from rfl,
    show (essentialFde opts fde).instructions = if opts.debugdump then fde.instructions else [] from rfl, h1]
  cases hr : fde.rows with
  | error e => rfl
  | ok xs =>
    rw [show Except.map (fun xs : List (Except GErr DwRow) => xs.map (·.map (essential opts.arch)))
      (.ok xs : Except GErr _) = .ok (xs.map (·.map (essential opts.arch))) from rfl]
    simp only [convertRows_essential]

theorem convertInputs_map (dbg : Bool) (opts : Options) (g : DwFde → DwFde)
    (hg : ∀ st fde, convertFde dbg opts st (g fde) = convertFde dbg opts st fde)
    (xs : List (Except ConvError DwFde)) (b : SFrameBuilder) (log : List Warning) :
    convertInputs dbg opts (xs.map (·.map g)) b log = convertInputs dbg opts xs b log := by
  induction xs generalizing b log with
  | nil => rfl
  | cons x xs ih =>
    cases x with
    | error e => rfl
    | ok fde =>
      show convertInputs dbg opts (.ok (g fde) :: xs.map (·.map g)) b log = _
      rw [convertInputs, convertInputs, hg]
      simp only [ih]

/-- **C81.**  The result of the converter, be it a section with its warnings, an error or a panic, does
not depend on anything but what `essential` keeps of the rows: where they start, whether they are
empty, the CFA unless it is an expression, and the rules for the frame pointer and the return address
(and on the instructions only if they are to be dumped). -/
theorem C81_essential (dbg : Bool) (eh eh' : EhFrame) (opts : Options)
    (hend : eh'.bigEndian = eh.bigEndian)
    (h : (inputs eh' opts.bases).map (·.map (essentialFde opts))
      = (inputs eh opts.bases).map (·.map (essentialFde opts))) :
    dwarf2sframeLog dbg eh' opts = dwarf2sframeLog dbg eh opts ∧
    dwarf2sframe dbg eh' opts = dwarf2sframe dbg eh opts := by
  have key : dwarf2sframeLog dbg eh' opts = dwarf2sframeLog dbg eh opts := by
    rw [dwarf2sframeLog_inputs, dwarf2sframeLog_inputs, sectionOptions_congr opts hend,
      ← convertInputs_map dbg opts (essentialFde opts) (convertFde_essential dbg opts) (inputs eh' opts.bases),
      h, convertInputs_map dbg opts (essentialFde opts) (convertFde_essential dbg opts)]
  exact ⟨key, by unfold dwarf2sframe; rw [key]⟩

/-- Rules for other registers, other ends of rows, other expressions and instructions that cannot be
decoded: nothing changes. -/
example : let fde' : DwFde := { Samples.dwFde with
      instructions := [.error ⟨1⟩]
      rows := .ok [.ok { Samples.dwRow1 with registers := [(3, .offset (-24)), (16, .offset (-8)), (7, .sameValue)] },
        .ok { Samples.dwRow2 with end_ := 0x1001 }, .ok { Samples.dwRow2 with end_ := 0 },
        .ok { Samples.dwRow3 with cfa := .expression [.ok .abs, .error ⟨2⟩] }] }
    (inputs (Samples.ehOf [fde']) Samples.convOpts.bases).map (·.map (essentialFde Samples.convOpts))
      = (inputs (Samples.ehOf [Samples.dwFde]) Samples.convOpts.bases).map
          (·.map (essentialFde Samples.convOpts)) := rfl

/-! ### C82 -/

namespace Spec

/-- A row moved by `d`. -/
def shiftRow (d : U64) (row : DwRow) : DwRow := { row with start := row.start + d, end_ := row.end_ + d }

/-- A function moved by `d`. -/
def shiftFde (d : U64) (fde : DwFde) : DwFde :=
  { fde with initial := fde.initial + d, rows := fde.rows.map fun xs => xs.map (·.map (shiftRow d)) }

end Spec

theorem ascending_ext {α : Type} (k : α → Int) {l l' : List α} (h : l.Pairwise fun a b => k a < k b)
    (h' : l'.Pairwise fun a b => k a < k b) (hm : ∀ a, a ∈ l ↔ a ∈ l') : l = l' := by
  induction l generalizing l' with
  | nil =>
    cases l' with
    | nil => rfl
    | cons b l' => exact absurd ((hm b).2 (by simp)) (by simp)
  | cons a l ih =>
    cases l' with
    | nil => exact absurd ((hm a).1 (by simp)) (by simp)
    | cons b l' =>
      rw [List.pairwise_cons] at h h'
      have hab : a = b := by
        rcases List.mem_cons.1 ((hm a).1 (by simp)) with rfl | ha
        · rfl
        · rcases List.mem_cons.1 ((hm b).2 (by simp)) with rfl | hb
          · rfl
          · have := h.1 _ hb
            have := h'.1 _ ha
            omega
      subst hab
      rw [ih h.2 h'.2 fun x => ?_]
      constructor
      · intro hx
        rcases List.mem_cons.1 ((hm x).1 (by simp [hx])) with rfl | hx'
        · have := h.1 _ hx; omega
        · exact hx'
      · intro hx
        rcases List.mem_cons.1 ((hm x).2 (by simp [hx])) with rfl | hx'
        · have := h'.1 _ hx; omega
        · exact hx'

theorem shift_empty (d : U64) (row : DwRow) :
    (shiftRow d row).start = (shiftRow d row).end_ ↔ row.start = row.end_ := by
  unfold shiftRow
  simp

theorem live_shift (d : U64) (rs : List DwRow) : live (rs.map (shiftRow d)) = (live rs).map (shiftRow d) := by
  unfold live
  rw [List.filter_map]
  congr 2
  funext r
  simp only [Function.comp, ne_eq, shift_empty]

theorem rowsOf_shift (d : U64) (fde : DwFde) : rowsOf (shiftFde d fde) = (rowsOf fde).map (shiftRow d) := by
  unfold rowsOf shiftFde
  simp only
  cases fde.rows with
  | error e => rfl
  | ok xs =>
    simp only [Except.map]
    induction xs with
    | nil => rfl
    | cons x xs ih =>
      cases x with
      | error e =>
        rw [List.map_cons, List.filterMap_cons, List.filterMap_cons]
        exact ih
      | ok r =>
        rw [List.map_cons, List.filterMap_cons, List.filterMap_cons]
        exact congrArg (shiftRow d r :: ·) ih

theorem rowOf_shift {so : SFrameOptions} {arch : Architecture} {fde : DwFde} {r : DwRow} {d : U64}
    (hi : (fde.initial + d).toNat ≤ 2147483647) (h : Placed so arch fde r) :
    rowOf arch (shiftFde d fde) (shiftRow d r) = rowOf arch fde r ∧
    Placed so arch (shiftFde d fde) (shiftRow d r) := by
  have ht : translate arch (shiftRow d r) = translate arch r := rfl
  have h1 := h.after
  have h2 := h.inside
  have h3 := h.small
  have h4 : (r.start + d).toNat = (fde.initial + d).toNat + (r.start.toNat - fde.initial.toNat) := by
    rw [BitVec.toNat_add] at hi ⊢
    rw [BitVec.toNat_add]
    omega
  refine ⟨?_, ?_, ?_, ?_, ?_⟩
  · unfold rowOf
    rw [ht]
    congr 2
    show (r.start + d).toNat - (fde.initial + d).toNat = _
    omega
  · show (fde.initial + d).toNat ≤ (r.start + d).toNat
    omega
  · show (r.start + d).toNat < (fde.initial + d).toNat + fde.len.toNat
    omega
  · show (r.start + d).toNat < (fde.initial + d).toNat + 2 ^ 28
    omega
  · rw [ht]; exact h.ra

theorem convertible_shift {so : SFrameOptions} {opts : Options} {fde : DwFde} {d : U64}
    (hi : (fde.initial + d).toNat ≤ 2147483647) (h : Convertible so opts fde) :
    Convertible so opts (shiftFde d fde) ∧
    fnFor so opts (shiftFde d fde)
      = { fnFor so opts fde with startAddress := (fnFor so opts fde).startAddress + d.setWidth 32 } := by
  have hr := rowsOf_shift d fde
  constructor
  · refine ⟨h.dump, hi, h.len, ?_, ?_, ?_⟩
    · rw [hr]
      show fde.rows.map _ = _
      rw [h.rows]
      simp only [Except.map, List.map_map]
      rfl
    · rw [hr, live_shift]
      intro r hr
      obtain ⟨r', hr', rfl⟩ := List.mem_map.1 hr
      exact (rowOf_shift hi (h.clean.placed r' hr')).2
    · rw [hr, live_shift, List.pairwise_map]
      refine h.clean.distinct.imp ?_
      intro a b hab he
      exact hab (by simpa [shiftRow] using he)
  · have hb : built so opts.arch (shiftFde d fde) (rowsOf (shiftFde d fde))
        = { built so opts.arch fde (rowsOf fde) with
            startAddress := (built so opts.arch fde (rowsOf fde)).startAddress + d.setWidth 32 } := by
      have hf : ∀ (l : List DwRow) (m : BMap U32 FrameRowBuilder), (∀ r ∈ l, Placed so opts.arch fde r) →
          (l.map (shiftRow d)).foldl (fun m r => m.insert ordU32 (rowOf opts.arch (shiftFde d fde) r).startAddress
            (storedRow so (rowOf opts.arch (shiftFde d fde) r))) m
          = l.foldl (fun m r => m.insert ordU32 (rowOf opts.arch fde r).startAddress
            (storedRow so (rowOf opts.arch fde r))) m := by
        intro l
        induction l with
        | nil => intro _ _; rfl
        | cons r l ih =>
          intro m hl
          rw [List.map_cons, List.foldl_cons, List.foldl_cons, (rowOf_shift hi (hl r (by simp))).1]
          exact ih _ fun r hr => hl r (by simp [hr])
      unfold built
      rw [hr, live_shift, hf _ _ h.clean.placed]
      dsimp only [FuncDescBuilder.new, shiftFde]
      rw [BitVec.setWidth_add _ _ (by decide)]
    unfold fnFor
    rw [hb]
    split <;> rfl

theorem lastWith_shift {fdes : List DwFde} {d : U64} {g : DwFde} :
    LastWith (fdes.map (shiftFde d)) g ↔ ∃ fde, LastWith fdes fde ∧ g = shiftFde d fde := by
  constructor
  · rintro ⟨pre, post, h, hp⟩
    obtain ⟨l1, l2, rfl, h1, h2⟩ := List.map_eq_append_iff.1 h
    cases l2 with
    | nil => cases h2
    | cons fde l2 =>
      rw [List.map_cons] at h2
      obtain ⟨rfl, rfl⟩ := List.cons.inj h2
      refine ⟨fde, ⟨l1, l2, rfl, fun f hf he => hp _ (List.mem_map_of_mem hf) ?_⟩, rfl⟩
      show f.initial + d = fde.initial + d
      rw [he]
  · rintro ⟨fde, ⟨pre, post, rfl, hp⟩, rfl⟩
    refine ⟨pre.map (shiftFde d), post.map (shiftFde d), by simp, fun f hf he => ?_⟩
    obtain ⟨f', hf', rfl⟩ := List.mem_map.1 hf
    refine hp f' hf' ?_
    have : f'.initial + d = fde.initial + d := he
    simpa using this

theorem functions_shift {so : SFrameOptions} {opts : Options} {fdes : List DwFde} {d : U64}
    (hfp : so.fixedFp = none) (hc : ∀ fde ∈ fdes, Convertible so opts fde)
    (hd' : ∀ fde ∈ fdes, (fde.initial + d).toNat ≤ 2147483647)
    (hc' : ∀ g ∈ fdes.map (shiftFde d), Convertible so opts g) :
    functions (outputOf so opts (fdes.map (shiftFde d))) =
      (functions (outputOf so opts fdes)).map
        fun f => { f with startAddress := f.startAddress + d.setWidth 32 } := by
  have hstart : ∀ f ∈ functions (outputOf so opts fdes), ∃ fde ∈ fdes,
      f.startAddress.toInt = fde.initial.toNat ∧
      (f.startAddress + d.setWidth 32).toInt = (fde.initial + d).toNat := by
    intro f hf
    obtain ⟨fde, hl, rfl⟩ := (mem_functions (fun g hg => (hc g hg).start) f).1 hf
    have hm := hl.mem
    refine ⟨fde, hm, ?_, ?_⟩
    · rw [(fnFor_fields _ opts fde).2.1]
      exact setWidth_toInt (hc fde hm).start
    · rw [(fnFor_fields _ opts fde).2.1, ← setWidth_toInt (hd' fde hm),
        BitVec.setWidth_add _ _ (by decide)]
  refine ascending_ext (fun f : FuncDescBuilder => f.startAddress.toInt) (functions_ascending (output_inv hfp hc')) ?_ ?_
  · rw [List.pairwise_map]
    refine (functions_ascending (output_inv hfp hc)).imp_of_mem ?_
    intro f g hf hg hfg
    obtain ⟨x, hx, h1, h2⟩ := hstart f hf
    obtain ⟨y, hy, h3, h4⟩ := hstart g hg
    show (f.startAddress + d.setWidth 32).toInt < (g.startAddress + d.setWidth 32).toInt
    have := hd' x hx
    have := hd' y hy
    have := (hc x hx).start
    have := (hc y hy).start
    have hfg' : f.startAddress.toInt < g.startAddress.toInt := hfg
    rw [h1, h3] at hfg'
    rw [h2, h4]
    have h5 : (x.initial + d).toNat = (x.initial.toNat + d.toNat) % 2 ^ 64 := BitVec.toNat_add ..
    have h6 : (y.initial + d).toNat = (y.initial.toNat + d.toNat) % 2 ^ 64 := BitVec.toNat_add ..
    omega
  · intro f
    rw [mem_functions (fun g hg => (hc' g hg).start)]
    constructor
    · rintro ⟨g, hl, rfl⟩
      obtain ⟨fde, hl', rfl⟩ := lastWith_shift.1 hl
      rw [(convertible_shift (hd' fde hl'.mem) (hc fde hl'.mem)).2]
      exact List.mem_map.2 ⟨_, (mem_functions (fun g hg => (hc g hg).start) _).2 ⟨fde, hl', rfl⟩, rfl⟩
    · intro hf
      obtain ⟨f', hf', rfl⟩ := List.mem_map.1 hf
      obtain ⟨fde, hl, rfl⟩ := (mem_functions (fun g hg => (hc g hg).start) _).1 hf'
      exact ⟨_, lastWith_shift.2 ⟨fde, hl, rfl⟩,
        (convertible_shift (hd' fde hl.mem) (hc fde hl.mem)).2.symm⟩

/-- **C82.**  Moving all functions by the same distance (in either direction: `d` may wrap around) moves
the functions of the result by it, and changes nothing else, as long as the functions start at
addresses that SFrame can express. -/
theorem C82_moved (dbg : Bool) (eh : EhFrame) (opts : Options) (b : SFrameBuilder) (d : U64)
    (h : dwarf2sframe dbg eh opts = .ok (.ok b))
    (hd : ∀ fde, .ok fde ∈ inputs eh opts.bases → (fde.initial + d).toNat ≤ 2147483647) :
    ∃ b', dwarf2sframe dbg (mapFdes (shiftFde d) eh) opts = .ok (.ok b') ∧ b'.options = b.options ∧
      functions b' = (functions b).map fun f => { f with startAddress := f.startAddress + d.setWidth 32 } := by
  obtain ⟨fdes, hin, hc, rfl⟩ := dwarf2sframe_ok_iff.1 h
  have hd' : ∀ fde ∈ fdes, (fde.initial + d).toNat ≤ 2147483647 := fun fde hf =>
    hd fde (by rw [hin]; exact List.mem_map_of_mem hf)
  have hfp := sectionOptions_fp eh opts
  have hc' : ∀ g ∈ fdes.map (shiftFde d), Convertible (sectionOptions eh opts) opts g := by
    intro g hg
    obtain ⟨fde, hf, rfl⟩ := List.mem_map.1 hg
    exact (convertible_shift (hd' fde hf) (hc fde hf)).1
  refine ⟨outputOf (sectionOptions eh opts) opts (fdes.map (shiftFde d)), ?_, rfl, ?_⟩
  · refine dwarf2sframe_ok_iff.2 ⟨fdes.map (shiftFde d), ?_, hc', rfl⟩
    rw [inputs_mapFdes, hin, List.map_map, List.map_map]
    rfl
  · exact functions_shift hfp hc hd' hc'

/-- The sample function moved down by 0x1000. -/
example (dbg : Bool) : dwarf2sframe dbg (mapFdes (shiftFde (-0x1000)) (Samples.ehOf [Samples.dwFde])) Samples.convOpts
    = .ok (.ok { options := Samples.opts, fdes := [(0, { Samples.convFn with startAddress := 0 })] }) := by
  cases dbg <;> decide +kernel

end Verif
