import Verif.Props.Execute
import Verif.Props.Convert2
import Verif.Spec.Execute2
/-!
# Which call frame instructions are converted: C102
-/

namespace Verif
open Spec

theorem locations_of_table {cie : CieInfo} {init : RuleSet} {finish : U64} (is : List Insn) {loc : U64}
    {st : CfiState} {t} (hf : LocationsFit cie is loc.toNat)
    (h : unwindTable cie init finish is loc st = some t) :
    locations cie is loc.toNat = t.map fun x => x.1.toNat := by
  induction is generalizing loc st t with
  | nil => cases h; rfl
  | cons i is ih =>
    cases i
    case advanceLoc d =>
      obtain ⟨t', h1, rfl⟩ := Option.map_eq_some_iff.1 h
      have h2 := advance_toNat hf.1
      have h3 := ih (by rw [h2]; exact hf.2) h1
      rw [h2] at h3
      rw [locations, h3, List.map_cons]
    case setLoc x =>
      rw [unwindTable] at h
      split at h
      · cases h
      · obtain ⟨t', h1, rfl⟩ := Option.map_eq_some_iff.1 h
        rw [locations, ih hf h1, List.map_cons]
    all_goals
      obtain ⟨st', _, h1⟩ := Option.bind_eq_some_iff.1 h
      exact ih hf h1

theorem Chain.le_finish {finish loc : U64} {t} (h : Chain finish loc t)
    (ho : ∀ x ∈ t, x.1.toNat ≤ x.2.1.toNat) : ∀ x ∈ t, x.1.toNat ≤ finish.toNat := by
  induction t generalizing loc with
  | nil => exact h.elim
  | cons x t ih =>
    cases t with
    | nil =>
      intro y hy
      have h1 := ho y hy
      rw [List.mem_singleton] at hy
      subst hy
      rw [← h.2]; exact h1
    | cons z r =>
      have i1 := ih h.2.2 fun y hy => ho y (List.mem_cons_of_mem _ hy)
      intro y hy
      rcases List.mem_cons.1 hy with rfl | hy
      · have h1 := i1 z (List.mem_cons_self ..)
        have h2 := ho y (List.mem_cons_self ..)
        have h3 : z.1 = y.2.1 := by
          have := h.2.2
          cases r with
          | nil => exact this.1
          | cons _ _ => exact this.1
        rw [h3] at h1
        omega
      · exact i1 y hy

theorem Chain.live_before {finish loc : U64} {t} (h : Chain finish loc t)
    (ho : ∀ x ∈ t, x.1.toNat ≤ finish.toNat) : ∀ x ∈ t, x.1 ≠ x.2.1 → x.1.toNat < finish.toNat := by
  induction t generalizing loc with
  | nil => exact h.elim
  | cons x t ih =>
    have hne : ∀ y : U64 × U64 × RuleSet, y.1 ≠ y.2.1 → y.1.toNat ≠ y.2.1.toNat :=
      fun y hy he => hy (BitVec.eq_of_toNat_eq he)
    cases t with
    | nil =>
      intro y hy hl
      have h1 := ho y hy
      rw [List.mem_singleton] at hy
      subst hy
      have := hne y hl
      rw [h.2] at this
      omega
    | cons z r =>
      have i1 := ih h.2.2 fun y hy => ho y (List.mem_cons_of_mem _ hy)
      intro y hy hl
      rcases List.mem_cons.1 hy with rfl | hy
      · have h1 := ho z (List.mem_cons_of_mem _ (List.mem_cons_self ..))
        have h3 : z.1 = y.2.1 := by
          have := h.2.2
          cases r with
          | nil => exact this.1
          | cons _ _ => exact this.1
        have h4 := h.2.1
        have h5 := h.1
        have := hne y hl
        rw [h3] at h1
        rw [h5] at this ⊢
        omega
      · exact i1 y hy hl

theorem Chain.starts_live {finish loc : U64} {t} (h : Chain finish loc t) :
    ∀ x ∈ t, x.1.toNat < finish.toNat → ∃ y ∈ t, y.1 = x.1 ∧ y.1 ≠ y.2.1 := by
  induction t generalizing loc with
  | nil => exact h.elim
  | cons x t ih =>
    cases t with
    | nil =>
      intro y hy hl
      refine ⟨y, hy, rfl, ?_⟩
      rw [List.mem_singleton] at hy
      subst hy
      intro he
      rw [he, h.2] at hl
      omega
    | cons z r =>
      have i1 := ih h.2.2
      have h3 : z.1 = x.2.1 := by
        have := h.2.2
        cases r with
        | nil => exact this.1
        | cons _ _ => exact this.1
      intro y hy hl
      rcases List.mem_cons.1 hy with rfl | hy
      · by_cases he : y.1 = y.2.1
        · obtain ⟨w, hw, hw1, hw2⟩ := i1 z (List.mem_cons_self ..) (by rw [h3, ← he]; exact hl)
          exact ⟨w, List.mem_cons_of_mem _ hw, by rw [hw1, h3, he], hw2⟩
        · exact ⟨y, List.mem_cons_self .., rfl, he⟩
      · obtain ⟨w, hw, hw1, hw2⟩ := i1 y hy hl
        exact ⟨w, List.mem_cons_of_mem _ hw, hw1, hw2⟩

/-- The rows of a function and the table of its instructions. -/
structure Table (cie : CieInfo) (fde : DwFde) (t : List (U64 × U64 × RuleSet)) : Prop where
  chain : Chain (fde.initial + fde.len) fde.initial t
  locs : locations cie (fde.instructions.filterMap Except.toOption) fde.initial.toNat = t.map fun x => x.1.toNat
  covers : ∀ a : Nat, fde.initial.toNat ≤ a → a < (fde.initial + fde.len).toNat →
    ∃ x ∈ t, x.1.toNat ≤ a ∧ a < x.2.1.toNat ∧ instructionRules cie fde a = some x.2.2
  row : ∀ x ∈ t, ∃ r ∈ rowsOf fde, Shows r x
  entry : ∀ r ∈ rowsOf fde, ∃ x ∈ t, Shows r x
  bounds : (rowsOf fde).map (fun r => (r.start, r.end_)) = t.map (fun x => (x.1, x.2.1))

theorem table_of_executed {cie : CieInfo} {fde : DwFde} (hx : Executed cie fde)
    (hr : fde.rows = .ok ((rowsOf fde).map .ok))
    (hf : LocationsFit cie (fde.instructions.filterMap Except.toOption) fde.initial.toNat) :
    ∃ t, Table cie fde t := by
  obtain ⟨is, st, t, h1, h2, h3, h4, h5⟩ := hx _ hr
  have his : fde.instructions.filterMap Except.toOption = is := by
    rw [h1, List.filterMap_map]
    exact List.filterMap_some
  rw [his] at hf
  refine ⟨t, chain_of_table is hf h3, ?_, ?_, ?_, ?_, ?_⟩
  · rw [his]; exact locations_of_table is hf h3
  · intro a ha1 ha2
    obtain ⟨x, hx', hx1, hx2, hx3⟩ := table_covers ha2 is hf ha1 h3
    refine ⟨x, hx', hx1, hx2, ?_⟩
    unfold instructionRules
    rw [h2, Option.bind_some, his]
    exact hx3
  · intro x hx'
    obtain ⟨i, hi⟩ := List.mem_iff_getElem?.1 hx'
    obtain ⟨hil, _⟩ := List.getElem?_eq_some_iff.1 hi
    have hri := List.getElem?_eq_getElem (l := rowsOf fde) (i := i) (by omega)
    exact ⟨_, List.mem_of_getElem? hri, h5 i _ _ hri hi⟩
  · intro r hr'
    obtain ⟨i, hi⟩ := List.mem_iff_getElem?.1 hr'
    obtain ⟨hil, _⟩ := List.getElem?_eq_some_iff.1 hi
    have hti := List.getElem?_eq_getElem (l := t) (i := i) (by omega)
    exact ⟨_, List.mem_of_getElem? hti, h5 i _ _ hi hti⟩
  · apply List.ext_getElem?
    intro i
    rw [List.getElem?_map, List.getElem?_map]
    by_cases hi : i < t.length
    · have a1 := List.getElem?_eq_getElem hi
      have a2 := List.getElem?_eq_getElem (l := rowsOf fde) (i := i) (by omega)
      have hs := h5 i _ _ a2 a1
      rw [a1, a2, Option.map_some, Option.map_some, hs.start, hs.end_]
    · rw [List.getElem?_eq_none (by omega), List.getElem?_eq_none (by omega)]
      rfl

theorem Spec.Shows.translate {row : DwRow} {x : U64 × U64 × RuleSet} (h : Shows row x) (arch : Architecture) :
    Spec.translate arch row = expressible arch x.2.2 := by
  rw [translate_expressible, h.cfa, show row.register = x.2.2.reg from funext h.reg]

theorem Spec.Shows.live {fde : DwFde} {row : DwRow} {x : U64 × U64 × RuleSet} (h : Shows row x)
    (hr : row ∈ rowsOf fde) (hne : x.1 ≠ x.2.1) : row ∈ Spec.live (rowsOf fde) :=
  List.mem_filter.2 ⟨hr, by rw [h.start, h.end_]; simpa using hne⟩

/-- The rules of a row that covers an address are those at its start. -/
theorem Table.at_start {cie : CieInfo} {fde : DwFde} {t} (ht : Table cie fde t)
    (hord : (∀ x ∈ t, x.1.toNat ≤ x.2.1.toNat) ∧ t.Pairwise fun x y => x.2.1.toNat ≤ y.1.toNat)
    {x : U64 × U64 × RuleSet} (hx : x ∈ t) (hne : x.1 ≠ x.2.1)
    (hlt : x.1.toNat < (fde.initial + fde.len).toNat) :
    instructionRules cie fde x.1.toNat = some x.2.2 := by
  obtain ⟨y, hy, h1, h2, h3⟩ := ht.covers x.1.toNat (ht.chain.starts x hx) hlt
  have hxle := hord.1 x hx
  have hxlt : x.1.toNat < x.2.1.toNat := by
    have : x.1.toNat ≠ x.2.1.toNat := fun he => hne (BitVec.eq_of_toNat_eq he)
    omega
  have hxy : x = y := by
    obtain ⟨i, hi⟩ := List.mem_iff_getElem?.1 hx
    obtain ⟨j, hj⟩ := List.mem_iff_getElem?.1 hy
    obtain ⟨hi', rfl⟩ := List.getElem?_eq_some_iff.1 hi
    obtain ⟨hj', rfl⟩ := List.getElem?_eq_some_iff.1 hj
    rcases Nat.lt_trichotomy i j with hij | rfl | hij
    · have := List.pairwise_iff_getElem.1 hord.2 i j hi' hj' hij
      omega
    · rfl
    · have := List.pairwise_iff_getElem.1 hord.2 j i hj' hi' hij
      omega
  rw [hxy] at h3 ⊢
  exact h3

theorem sectionOptions_ra_amd (eh : EhFrame) (opts : Options) (ha : opts.arch = .amd64)
    (he : endianOf eh opts = .little) :
    ∃ v, (sectionOptions eh opts).fixedRa = some v ∧ v.val.toInt = -8 := by
  have hq : opts.endian.getD (if eh.bigEndian then .big else .little) = endianOf eh opts := by
    unfold endianOf
    cases opts.endian <;> rfl
  refine ⟨⟨0xF8, by decide⟩, ?_, by decide⟩
  unfold sectionOptions chooseAbi
  simp only [hq, he, ha]
  rfl

/-- A function with executed instructions can be converted exactly if they suit. -/
theorem convertible_iff_suits {eh : EhFrame} {opts : Options} {cie : CieInfo} {fde : DwFde}
    (hx : Executed cie fde) (hr : fde.rows = .ok ((rowsOf fde).map .ok))
    (hf : LocationsFit cie (fde.instructions.filterMap Except.toOption) fde.initial.toNat) :
    Convertible (sectionOptions eh opts) opts fde ↔
      DumpOk opts fde ∧ Suits cie fde ∧
      (opts.arch = .amd64 → endianOf eh opts = .little → ReturnsAt cie fde .amd64 (-8)) := by
  obtain ⟨t, ht⟩ := table_of_executed hx hr hf
  have hfin : fde.initial.toNat ≤ 2147483647 → fde.len.toNat ≤ 2147483647 →
      (fde.initial + fde.len).toNat = fde.initial.toNat + fde.len.toNat := by
    intro h1 h2
    rw [BitVec.toNat_add]
    omega
  constructor
  · intro hc
    have hfin := hfin hc.start hc.len
    have hp : ∀ x ∈ t, x.1 ≠ x.2.1 → ∃ r, Shows r x ∧ Placed (sectionOptions eh opts) opts.arch fde r := by
      intro x hx' hne
      obtain ⟨r, hr', hs⟩ := ht.row x hx'
      exact ⟨r, hs, hc.clean.placed r (hs.live hr' hne)⟩
    have hord := ht.chain.ordered (by
      intro x hx' hne
      obtain ⟨r, hs, hp⟩ := hp x hx' hne
      rw [← hs.start, hfin]
      exact hp.inside)
    have hle := ht.chain.le_finish hord.1
    refine ⟨hc.dump, ⟨by have := hc.start; omega, by have := hc.len; omega, ?_, ?_⟩, ?_⟩
    · intro l hl
      rw [ht.locs] at hl
      obtain ⟨x, hx', rfl⟩ := List.mem_map.1 hl
      rw [← hfin]
      exact hle x hx'
    · intro l hl hlt
      rw [ht.locs] at hl
      obtain ⟨x, hx', rfl⟩ := List.mem_map.1 hl
      obtain ⟨y, hy, he, hne⟩ := ht.chain.starts_live x hx' (by rw [hfin]; exact hlt)
      obtain ⟨r, hs, hp⟩ := hp y hy hne
      rw [← he, ← hs.start]
      exact hp.small
    · intro ha he a ha1 ha2 rs q hrs hq
      obtain ⟨x, hx', h1, h2, h3⟩ := ht.covers a ha1 (by omega)
      rw [hrs] at h3
      cases h3
      obtain ⟨r, hs, hp⟩ := hp x hx' (fun h => by rw [h] at h1; omega)
      obtain ⟨v, hv1, hv2⟩ := sectionOptions_ra_amd eh opts ha he
      rw [hp.ra q v (by rw [hs.translate, ha]; exact hq) hv1, hv2]
  · rintro ⟨hd, hs, hra⟩
    have hfin := hfin (by have := hs.start; omega) (by have := hs.len; omega)
    have hin : ∀ x ∈ t, x.1.toNat ≤ (fde.initial + fde.len).toNat := by
      intro x hx'
      rw [hfin]
      exact hs.inside _ (by rw [ht.locs]; exact List.mem_map_of_mem (f := fun x : U64 × U64 × RuleSet => x.1.toNat) hx')
    have hlive := ht.chain.live_before hin
    have hord := ht.chain.ordered hlive
    refine ⟨hd, by have := hs.start; omega, by have := hs.len; omega, hr, ?_, ?_⟩
    · intro r hr'
      obtain ⟨hr1, hr2⟩ := List.mem_filter.1 hr'
      obtain ⟨x, hx', hsh⟩ := ht.entry r hr1
      have hne : x.1 ≠ x.2.1 := by
        rw [← hsh.start, ← hsh.end_]; simpa using hr2
      have hlt := hlive x hx' hne
      have haft := ht.chain.starts x hx'
      rw [hfin] at hlt
      refine ⟨by rw [hsh.start]; exact haft, by rw [hsh.start]; exact hlt, ?_, ?_⟩
      · rw [hsh.start]
        exact hs.near _ (by rw [ht.locs]; exact List.mem_map_of_mem (f := fun x : U64 × U64 × RuleSet => x.1.toNat) hx') hlt
      · intro q v hq hv
        obtain ⟨ha, he, hv⟩ := sectionOptions_ra eh opts v hv
        rw [hv]
        have h3 := ht.at_start hord hx' hne (by rw [hfin]; exact hlt)
        exact hra ha he x.1.toNat haft hlt x.2.2 q h3 (by rw [← ha, ← hsh.translate]; exact hq)
    · apply wellFormed_distinct
      refine ⟨?_, ?_⟩
      · intro r hr'
        obtain ⟨x, hx', hsh⟩ := ht.entry r hr'
        rw [hsh.start, hsh.end_]
        exact hord.1 x hx'
      · have h6 : (t.map (fun x => (x.1, x.2.1))).Pairwise fun x y => x.2.toNat ≤ y.1.toNat :=
          List.pairwise_map.2 hord.2
        rw [← ht.bounds] at h6
        exact List.pairwise_map.1 h6

/-- **C102.**  Let the rows of all functions be the tables of their instructions.  The section is converted exactly
if for each function the dump goes through, start and length are below 2^31, no location is beyond the end of the
function or, with addresses left, 2^28 bytes or more into it, and, on little-endian AMD64, the return address is at CFA - 8
wherever the rules can be expressed. -/
theorem C102_converts_iff (dbg : Bool) (eh : EhFrame) (opts : Options) (fdes : List DwFde)
    (hin : inputs eh opts.bases = fdes.map .ok) (cie : DwFde → CieInfo)
    (hr : ∀ fde ∈ fdes, ∃ rows : List DwRow, fde.rows = .ok (rows.map .ok))
    (hx : ∀ fde ∈ fdes, Executed (cie fde) fde)
    (hf : ∀ fde ∈ fdes,
      LocationsFit (cie fde) (fde.instructions.filterMap Except.toOption) fde.initial.toNat) :
    (∃ b, dwarf2sframe dbg eh opts = .ok (.ok b)) ↔
      ∀ fde ∈ fdes, DumpOk opts fde ∧ Suits (cie fde) fde ∧
        (opts.arch = .amd64 → endianOf eh opts = .little → ReturnsAt (cie fde) fde .amd64 (-8)) := by
  have hr' : ∀ fde ∈ fdes, fde.rows = .ok ((rowsOf fde).map .ok) := by
    intro fde hm
    obtain ⟨rows, h⟩ := hr fde hm
    have : rowsOf fde = rows := by
      unfold rowsOf
      rw [h]
      simp only [List.filterMap_map]
      exact List.filterMap_some
    rw [this, h]
  constructor
  · rintro ⟨b, hb⟩ fde hm
    obtain ⟨fdes', hin', hc, _⟩ := dwarf2sframe_ok_iff.1 hb
    rw [hin] at hin'
    cases map_ok_inj hin'
    exact (convertible_iff_suits (hx fde hm) (hr' fde hm) (hf fde hm)).1 (hc fde hm)
  · intro h
    exact ⟨_, dwarf2sframe_ok_iff.2 ⟨fdes, hin, fun fde hm =>
      (convertible_iff_suits (hx fde hm) (hr' fde hm) (hf fde hm)).2 (h fde hm), rfl⟩⟩

/-- The function with a prologue meets the hypotheses and suits. -/
example :
    (∃ rows : List DwRow, Samples.prologueFde.rows = .ok (rows.map .ok)) ∧
    Executed Samples.cie64 Samples.prologueFde ∧
    LocationsFit Samples.cie64 Samples.prologue 0x1000 ∧
    Suits Samples.cie64 Samples.prologueFde ∧
    ReturnsAt Samples.cie64 Samples.prologueFde .amd64 (-8) := by
  have hl : locations Samples.cie64 (Samples.prologueFde.instructions.filterMap Except.toOption)
      Samples.prologueFde.initial.toNat = [0x1000, 0x1001, 0x1004, 0x1014, 0x1015] := by decide +kernel
  refine ⟨⟨_, rfl⟩, Samples.prologue_executed, by simp [Samples.prologue, LocationsFit, Samples.cie64],
    ⟨by decide, by decide, ?_, ?_⟩, ?_⟩
  · rw [hl]; decide
  · rw [hl]; decide
  · intro a h1 h2 rs t h3 h4
    have h5 : ∀ a ∈ List.range' 0x1000 32,
        ((instructionRules Samples.cie64 Samples.prologueFde a).bind (expressible .amd64)).all fun t =>
          decide (t.ra = -8) := by decide +kernel
    have h6 := h5 a (List.mem_range'_1.2 ⟨h1, h2⟩)
    rw [h3, Option.bind_some, h4] at h6
    simpa using h6

/-- The same function, cut off before its last location, does not suit. -/
example : ¬ Suits Samples.cie64 { Samples.prologueFde with len := 0x14 } := by
  intro h
  have := h.inside 0x1015 (by decide +kernel)
  exact absurd this (by decide)

end Verif
