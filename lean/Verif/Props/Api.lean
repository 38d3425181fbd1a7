import Verif.Props.Unwind
import Verif.Props.Lookup
import Verif.Props.Ties
/-!
# Looking up rules in a converted section with the reader's own lookups: C70
-/

namespace Verif
open Spec

variable {o : Endian}

/-- The rules for an address by `fde_for_address` and `get_fre_for_address`, and the mangled flag; `none`
if nothing is found. -/
def Spec.apiRulesAt (alg : SearchAlg) (dbg : Bool) (s : SFrame o) (a : I32) :
    Rust (Except ReadError (Option (Option Rules × Bool))) :=
  (s.fdeForAddress alg dbg a).bind fun
  | none => .ok (.ok none)
  | some e => (e.getFreForAddress dbg a).bind fun
    | .error x => .ok (.error x)
    | .ok none => .ok (.ok none)
    | .ok (some q) => .ok (.ok (some (readRules s q, q.mangled)))

namespace Samples

/-- Two functions of one row each. -/
def apiFdes : List DwFde :=
  [oneRow { dwRow1 with end_ := 0x1020 },
   { initial := 0x1020, len := 0x20, instructions := [],
     rows := .ok [.ok { dwRow1 with start := 0x1020, end_ := 0x1040, cfa := .registerAndOffset 7 64 }] }]

/-- What they are converted to. -/
def apiB : SFrameBuilder :=
  { options := opts, fdes := [
      (0x1000, { FuncDescBuilder.new opts 0x1000 0x20 with fres := [(0, ⟨0, some ⟨8, none, none⟩, false, .sp⟩)] }),
      (0x1020, { FuncDescBuilder.new opts 0x1020 0x20 with fres := [(0, ⟨0, some ⟨64, none, none⟩, false, .sp⟩)] })] }

/-- A function of two rows. -/
def apiFde2 : DwFde :=
  { initial := 0x1000, len := 0x20, instructions := [], rows := .ok [.ok dwRow1, .ok { dwRow2 with end_ := 0x1020 }] }

/-- What it is converted to. -/
def apiB2 : SFrameBuilder :=
  { options := opts, fdes := [(0x1000, { FuncDescBuilder.new opts 0x1000 0x20 with
      fres := [(0, ⟨0, some ⟨8, none, none⟩, false, .sp⟩), (1, ⟨1, some ⟨16, none, some (-16)⟩, false, .sp⟩)] })] }

end Samples

/-- **C70 is false of the code.**  Two functions: at an address of the first, nothing is found; at one of
the second, the rules of the first are found. -/
theorem C70_other_function (dbg : Bool) :
    ∃ out s, dwarf2sframe dbg (Samples.ehOf Samples.apiFdes) Samples.convOpts = .ok (.ok Samples.apiB) ∧
      Samples.apiB.build dbg .little = .ok (.ok out) ∧ SFrame.load .little out = .ok (.ok s) ∧
      sfRulesAt s 0x1008 = some (⟨.sp, 8, none, -8⟩, false) ∧
      sfRulesAt s 0x1028 = some (⟨.sp, 64, none, -8⟩, false) ∧
      ∀ alg, apiRulesAt alg dbg s 0x1008 = .ok (.ok none) ∧
        apiRulesAt alg dbg s 0x1028 = .ok (.ok (some (some ⟨.sp, 8, none, -8⟩, false))) := by
  refine ⟨image .little Samples.apiB, _, ?_, ?_, rfl, by decide +kernel, by decide +kernel, fun alg => ?_⟩
  · cases dbg <;> decide +kernel
  · cases dbg <;> decide +kernel
  · cases dbg <;> cases alg <;> decide +kernel

/-- **C70 is false of the code.**  One function with two rows: at an address of the second row, the
rules of the first are found. -/
theorem C70_other_row (dbg : Bool) :
    ∃ out s, dwarf2sframe dbg (Samples.ehOf [Samples.apiFde2]) Samples.convOpts = .ok (.ok Samples.apiB2) ∧
      Samples.apiB2.build dbg .little = .ok (.ok out) ∧ SFrame.load .little out = .ok (.ok s) ∧
      sfRulesAt s 0x1008 = some (⟨.sp, 16, some (-16), -8⟩, false) ∧
      ∀ alg, apiRulesAt alg dbg s 0x1008 = .ok (.ok (some (some ⟨.sp, 8, none, -8⟩, false))) := by
  refine ⟨image .little Samples.apiB2, _, ?_, ?_, rfl, by decide +kernel, fun alg => ?_⟩
  · cases dbg <;> decide +kernel
  · cases dbg <;> decide +kernel
  · cases dbg <;> cases alg <;> decide +kernel

theorem find?_least {α : Type} {f : α → Nat} {l : List α} (hs : l.Pairwise fun x y => f x < f y) {n : Nat} {x y : α}
    (hx : l.find? (fun r => decide (f r ≤ n)) = some x) (hy : y ∈ l) (hyn : f y ≤ n) : x = y ∨ f x < f y := by
  induction l with
  | nil => cases hy
  | cons z l ih =>
    rw [List.find?_cons] at hx
    split at hx
    · cases hx
      rcases List.mem_cons.1 hy with rfl | hy
      · exact .inl rfl
      · exact .inr (List.rel_of_pairwise_cons hs hy)
    · rename_i hz
      rcases List.mem_cons.1 hy with rfl | hy
      · simp [hyn] at hz
      · exact ih (List.pairwise_cons.1 hs).2 hx hy

/-- **C70, what the lookups find if there is one function**: at every address of the function, the rules of the row that
starts first as they are read back (C52), whichever row covers the address; nothing before that row.  So they find the
rules of the row that covers the address exactly if these are those of the first row, read back.  Missing: the other addresses, for which it is false. -/
theorem C70_first_partial (dbg dbg' dbg'' : Bool) (alg : SearchAlg) (o : Endian) (eh : EhFrame)
    (opts : Options) (b : SFrameBuilder) (h : dwarf2sframe dbg eh opts = .ok (.ok b)) (out : List U8)
    (hb : b.build dbg' o = .ok (.ok out)) (fdes : List DwFde)
    (hin : inputs eh opts.bases = fdes.map .ok) (fde : DwFde) (hl : LastWith fdes fde)
    (honly : ∀ g, LastWith fdes g → g = fde) (hw : WellFormed (rowsOf fde)) :
    ∃ s, SFrame.load o out = .ok (.ok s) ∧
      ∀ (a : I32), (fde.initial.toNat : Int) ≤ a.toInt → a.toInt < fde.initial.toNat + fde.len.toNat →
        ((∀ d ∈ live (rowsOf fde), a.toInt < d.start.toNat) → apiRulesAt alg dbg'' s a = .ok (.ok none)) ∧
        ∀ first ∈ live (rowsOf fde), (∀ d ∈ live (rowsOf fde), first.start.toNat ≤ d.start.toNat) →
          (first.start.toNat : Int) ≤ a.toInt →
          apiRulesAt alg dbg'' s a = .ok (.ok (some ((translate opts.arch first).map (asStored b.options), false))) ∧
          ∀ row ∈ rowsOf fde, (row.start.toNat : Int) ≤ a.toInt → a.toInt < row.end_.toNat →
            (apiRulesAt alg dbg'' s a = .ok (.ok (some (translate opts.arch row, false))) ↔
              translate opts.arch row = (translate opts.arch first).map (asStored b.options)) := by
  have hreach := converted_reachable (dbg' := dbg) h
  obtain ⟨s, es, e, qs, h1, h2, h3, h4, h5, h6, h7⟩ :=
    C52_exact_partial dbg dbg' o eh opts b h out hb fdes hin fde hl hw
  obtain ⟨s', es', g1, g2, _, gflags, _, _, _, _, _, _, glen, gasc, gent⟩ :=
    C30_round_trip dbg' dbg o b hreach out hb
  rw [h1] at g1; cases g1
  rw [h2] at g2; cases g2
  have hsd := built_sorted hreach hb h1 h2
  have hflag : s.flags.toNat % 2 = 1 := by
    rw [gflags, (C43_options dbg eh opts b h).2.2.2]; decide
  obtain ⟨himg, _, hfits⟩ := build_ok hreach.inv hb
  have hsb : s = readBack o b := by
    have := load_image o b hfits
    rw [← himg, h1] at this
    cases this; rfl
  obtain ⟨fdes', hin', hc, hbe⟩ := dwarf2sframe_ok_iff.1 h
  rw [hin] at hin'
  cases map_ok_inj hin'
  have hfp := sectionOptions_fp eh opts
  have hfun : ∀ f ∈ functions b, f = fnFor (sectionOptions eh opts) opts fde := by
    intro f hf
    rw [hbe] at hf
    obtain ⟨fde', hl', rfl⟩ := (mem_functions (fun g hg => (hc g hg).start) _).1 hf
    rw [honly fde' hl']
  have hone : es.length = 1 := by
    have hpos : 0 < es.length := List.length_pos_of_mem h3
    apply Classical.byContradiction
    intro hne
    have := List.pairwise_iff_getElem.1 gasc 0 1 (by omega) (by omega) (by omega)
    rw [hfun _ (List.getElem_mem _), hfun _ (List.getElem_mem _)] at this
    omega
  obtain ⟨x, hx⟩ := List.length_eq_one_iff.1 hone
  subst hx
  have hxe : e = x := by simpa using h3
  subst hxe
  have hf0 : (functions b)[0]? = some (fnFor (sectionOptions eh opts) opts fde) := by
    rw [List.getElem?_eq_getElem (by simp at glen; omega), hfun _ (List.getElem_mem _)]
  obtain ⟨rest, hentry⟩ : ∃ rest, e = ⟨.v2 (fdeOf (fnFor (sectionOptions eh opts) opts fde)
      (chunkPos o b.fdes.values 0)), chunk o (fnFor (sectionOptions eh opts) opts fde) ++ rest⟩ := by
    obtain ⟨es2, k1, _, k2⟩ := readBack_entries o b hfits
    rw [← hsb, h2] at k1
    cases k1
    obtain ⟨rest, k3⟩ := k2 0 _ hf0
    simp only [List.getElem?_cons_zero, Option.some.injEq] at k3
    exact ⟨rest, k3⟩
  have he0 : e.fde.startFreOff = 0 := by
    rw [hentry]
    simp [Fde.startFreOff, fdeOf, chunkPos, chunks]
  obtain ⟨k1, k2, k3, _⟩ := gent 0 _ e hf0 rfl
  rw [(fnFor_fields _ _ _).2.2.2.1] at k3
  obtain ⟨qs', r1, r2, r3⟩ := rows_read hreach hfits (by rw [hbe]; exact hfp) hf0 hentry
    (fnFor_whole hfp (hc fde hl.mem))
  rw [h6] at r1
  have hqq : qs = qs' := by
    have := congrArg (List.filterMap Except.toOption) (Rust.ok.inj r1)
    rw [List.filterMap_map, List.filterMap_map] at this
    exact (List.filterMap_some.symm.trans this).trans List.filterMap_some
  subst hqq
  have hinv := (hreach.inv.function (List.mem_of_getElem? hf0)).1
  have hasc : qs.Pairwise fun q q' => q.startAddressOffset.toNat < q'.startAddressOffset.toNat := by
    rw [List.pairwise_iff_getElem]
    intro i j hi hj hij
    have := List.pairwise_iff_getElem.1 (rows_ascending hinv) i j (by omega) (by omega) hij
    rw [(r3 i _ _ (List.getElem?_eq_getElem (by omega)) (List.getElem?_eq_getElem hi)).1,
      (r3 j _ _ (List.getElem?_eq_getElem (by omega)) (List.getElem?_eq_getElem hj)).1]
    exact this
  have hfrom : ∀ q ∈ qs, ∃ d ∈ live (rowsOf fde), fde.initial.toNat ≤ d.start.toNat ∧
      q.startAddressOffset.toNat = d.start.toNat - fde.initial.toNat := by
    intro q hq
    obtain ⟨j, hj⟩ := List.mem_iff_getElem?.1 hq
    have hjl := (List.getElem?_eq_some_iff.1 hj).1
    have hjr := List.getElem?_eq_getElem
      (l := rows (fnFor (sectionOptions eh opts) opts fde)) (i := j) (by omega)
    have hs := r3 j _ q hjr hj
    obtain ⟨d, hd, hde⟩ := fnFor_rows hfp (hc fde hl.mem) (List.mem_of_getElem? hjr)
    rw [hde] at hs
    have hst := congrArg BitVec.toNat hs.1
    have hnear := ((hc fde hl.mem).clean.placed d hd).near
    simp only [storedRow, rowOf, BitVec.toNat_ofNat] at hst
    rw [Nat.mod_eq_of_lt (by have := hnear.2; omega)] at hst
    exact ⟨d, hd, hnear.1, hst⟩
  refine ⟨s, h1, fun a a1 a2 => ?_⟩
  have hcov : Covers e a := ⟨by omega, by omega⟩
  have hno : NoOverflow dbg'' e a := fun _ => by
    have := BitVec.toInt_lt (x := a)
    omega
  -- the function found is the one enumerated
  obtain ⟨e', he', hfe⟩ : ∃ e', s.fdeForAddress alg dbg'' a = .ok (some e') ∧ e'.fde = e.fde := by
    have := C16_sorted_lookup_partial (dbg := dbg'') (a := a) h2 hflag hsd
      (by intro e2 he2; rw [List.mem_singleton.1 he2]; exact hno) (k := 0) (e := e) rfl hcov
    cases alg with
    | v152 => rw [if_pos (by simp)] at this; exact this.1
    | v182 => rw [if_pos (c := [e].length = 1 ∨ _) (by simp)] at this; exact this.2
  obtain ⟨es2, c1, _, e2, c2, c3, c4⟩ := C17_lookup_rows_partial he'
  rw [h2] at c1; cases c1
  rw [List.mem_singleton.1 c2] at c4
  rw [(c4 hflag).2 (Or.inl he0)] at he'
  -- its rows
  obtain ⟨rel, hrel, hget⟩ := getFre_in_range hcov hno
  rw [show e.fdetype = .pcInc from k3] at hget
  simp only [FuncDescEntry.scan_of_collect e _ h6, firstHit_ok, ge_iff_le] at hget
  have hoff : rel.toNat = a.toInt.toNat - fde.initial.toNat := by omega
  constructor
  · intro hbefore
    have hnone : qs.find? (fun r => decide (r.startAddressOffset.toNat ≤ rel.toNat)) = none := by
      rw [List.find?_eq_none]
      intro q hq
      obtain ⟨d, hd, d1, d2⟩ := hfrom q hq
      have := hbefore d hd
      simp only [decide_eq_true_eq]
      omega
    unfold apiRulesAt
    rw [he', Rust.bind_ok]
    simp only
    rw [hget, Rust.bind_ok, hnone]
  · intro first hfl hleast hfa
    have hfm := List.mem_filter.1 hfl
    have hwide : first.start.toNat < first.end_.toNat := by
      have h1 := hw.1 first hfm.1
      have h2 : first.start ≠ first.end_ := by simpa using hfm.2
      have : first.start.toNat ≠ first.end_.toNat := fun h => h2 (BitVec.eq_of_toNat_eq h)
      omega
    obtain ⟨q, hq, hm, hr⟩ := h7 first hfm.1 first.start.toNat (Nat.le_refl _) hwide
    have hqm := List.mem_filter.1 (List.mem_of_getLast? hq)
    have hql : q.startAddressOffset.toNat ≤ first.start.toNat - fde.initial.toNat := by simpa using hqm.2
    have hres : apiRulesAt alg dbg'' s a = .ok (.ok (some ((translate opts.arch first).map (asStored b.options), false))) := by
      unfold apiRulesAt
      rw [he', Rust.bind_ok]
      simp only
      rw [hget, Rust.bind_ok]
      cases hfind : qs.find? fun r => decide (r.startAddressOffset.toNat ≤ rel.toNat) with
      | none =>
        have := List.find?_eq_none.1 hfind q hqm.1
        simp only [decide_eq_true_eq] at this
        omega
      | some q' =>
        have hqq : q' = q := by
          rcases find?_least hasc hfind hqm.1 (by omega) with h | h
          · exact h
          · obtain ⟨d, hd, d1, d2⟩ := hfrom q' (List.mem_of_find?_eq_some hfind)
            have := hleast d hd
            omega
        simp only
        rw [hqq, hr, hm]
    refine ⟨hres, fun row _ _ _ => ?_⟩
    rw [hres]
    constructor
    · intro h
      simp only [Rust.ok.injEq, Except.ok.injEq, Option.some.injEq, Prod.mk.injEq, and_true] at h
      exact h.symm
    · intro h
      rw [h]

/-- **C70, the part that holds**: if the input describes a single function, at every address of a row
before which no other row starts, the lookups find the rules of that row. -/
theorem C70_single_partial (dbg dbg' dbg'' : Bool) (alg : SearchAlg) (o : Endian) (eh : EhFrame)
    (opts : Options) (b : SFrameBuilder) (h : dwarf2sframe dbg eh opts = .ok (.ok b)) (out : List U8)
    (hb : b.build dbg' o = .ok (.ok out)) (fdes : List DwFde)
    (hin : inputs eh opts.bases = fdes.map .ok) (fde : DwFde) (hl : LastWith fdes fde)
    (honly : ∀ g, LastWith fdes g → g = fde) (hw : WellFormed (rowsOf fde))
    (ht : ∀ d ∈ live (rowsOf fde), ∀ t, translate opts.arch d = some t →
      ¬ WidthTie (storedValues b.options t)) :
    ∃ s, SFrame.load o out = .ok (.ok s) ∧
      ∀ (a : I32), ∀ row ∈ rowsOf fde,
        (fde.initial.toNat : Int) ≤ a.toInt → a.toInt < fde.initial.toNat + fde.len.toNat →
        (row.start.toNat : Int) ≤ a.toInt → a.toInt < row.end_.toNat →
        (∀ d ∈ live (rowsOf fde), (d.start.toNat : Int) ≤ a.toInt → d = row) →
        apiRulesAt alg dbg'' s a = .ok (.ok (some (translate opts.arch row, false))) := by
  obtain ⟨s, h1, h2⟩ := C70_first_partial dbg dbg' dbg'' alg o eh opts b h out hb fdes hin fde hl honly hw
  refine ⟨s, h1, fun a row hrow a1 a2 a3 a4 hfirst => ?_⟩
  have hlive : row ∈ live (rowsOf fde) := by
    refine List.mem_filter.2 ⟨hrow, ?_⟩
    have : row.start ≠ row.end_ := fun h => by rw [h] at a3; omega
    simpa using this
  have hsame : (translate opts.arch row).map (asStored b.options) = translate opts.arch row := by
    cases htr : translate opts.arch row with
    | none => rfl
    | some t => rw [Option.map_some, asStored_not_tie (ht row hlive t htr)]
  refine ((h2 a a1 a2).2 row hlive (fun d hd => ?_) a3).1.trans (by rw [hsame])
  · apply Classical.byContradiction
    intro hlt
    have := hfirst d hd (by omega)
    rw [this] at hlt
    omega

/-- A function of two rows meets the hypotheses, with its first row at its first address. -/
example (dbg : Bool) (alg : SearchAlg) :
    ∃ s, SFrame.load .little (image .little Samples.apiB2) = .ok (.ok s) ∧
      apiRulesAt alg dbg s 0x1000 = .ok (.ok (some (some ⟨.sp, 8, none, -8⟩, false))) := by
  obtain ⟨s, h1, h2⟩ := C70_single_partial dbg dbg dbg alg .little (Samples.ehOf [Samples.apiFde2])
    Samples.convOpts Samples.apiB2 (by cases dbg <;> decide +kernel) (image .little Samples.apiB2)
    (by cases dbg <;> decide +kernel) [Samples.apiFde2] rfl Samples.apiFde2 ⟨[], [], rfl, by simp⟩
    (fun g hg => by simpa using hg.mem) (by unfold WellFormed; decide +kernel)
    (fun d hd t ht => by
      have hd' : d ∈ [Samples.dwRow1, { Samples.dwRow2 with end_ := 0x1020 }] := hd
      simp only [List.mem_cons, List.not_mem_nil, or_false] at hd'
      have : t = ⟨.sp, 8, none, -8⟩ ∨ t = ⟨.sp, 16, some (-16), -8⟩ := by
        rcases hd' with rfl | rfl
        · exact .inl (Option.some.inj (ht.symm.trans (by decide +kernel)))
        · exact .inr (Option.some.inj (ht.symm.trans (by decide +kernel)))
      rcases this with rfl | rfl
      · exact C52_usual_partial _ _ (by decide) (by simp)
      · exact C52_usual_partial _ _ (by decide) (by simp))
  refine ⟨s, h1, (h2 0x1000 Samples.dwRow1 (by decide +kernel) (by decide) (by decide) (by decide)
    (by decide) ?_).trans (by decide +kernel)⟩
  decide +kernel

/-- The same function: at an address of its second row the rules of the first are found, which are others. -/
example (dbg : Bool) (alg : SearchAlg) :
    ∃ s, SFrame.load .little (image .little Samples.apiB2) = .ok (.ok s) ∧
      apiRulesAt alg dbg s 0x1008 = .ok (.ok (some (some ⟨.sp, 8, none, -8⟩, false))) ∧
      translate .amd64 { Samples.dwRow2 with end_ := 0x1020 } = some ⟨.sp, 16, some (-16), -8⟩ := by
  obtain ⟨s, h1, h2⟩ := C70_first_partial dbg dbg dbg alg .little (Samples.ehOf [Samples.apiFde2])
    Samples.convOpts Samples.apiB2 (by cases dbg <;> decide +kernel) (image .little Samples.apiB2)
    (by cases dbg <;> decide +kernel) [Samples.apiFde2] rfl Samples.apiFde2 ⟨[], [], rfl, by simp⟩
    (fun g hg => by simpa using hg.mem) (by unfold WellFormed; decide +kernel)
  refine ⟨s, h1, (((h2 0x1008 (by decide) (by decide)).2 Samples.dwRow1 (by decide +kernel) ?_ (by decide)).1).trans
    (by decide +kernel), by decide +kernel⟩
  decide +kernel

end Verif
