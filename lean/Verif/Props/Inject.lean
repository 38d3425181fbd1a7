import Verif.Props.Write
/-!
# Different builders, different bytes: C65
-/

namespace Verif
open Spec SFrameBuilder

/-- Nothing about the rows of `f` is lost in the encoding: no width tie, and no FP offset without RA
offset where the RA offset is per row. -/
def Spec.Distinct (f : FuncDescBuilder) : Prop :=
  ∀ r ∈ rows f, ¬ WidthTie (values r) ∧
    ∀ x, r.offsets = some x → f.options.fixedRa = none → x.fp.isSome → x.ra.isSome

/-- **C65 is false of the code**: there are builders that differ in one row only and are built to the
same bytes.  In the first pair an FP offset and an RA offset are confused, in the second -128 and 128. -/
theorem C65_not_injective (dbg : Bool) (o : Endian) :
    (∃ b b' out, SFrameBuilder.Reachable dbg b ∧ SFrameBuilder.Reachable dbg b' ∧ b ≠ b' ∧
      b.build dbg o = .ok (.ok out) ∧ b'.build dbg o = .ok (.ok out) ∧
      (functions b).map (fun f => (rows f).map (·.offsets)) = [[some ⟨16, none, some (-16)⟩]] ∧
      (functions b').map (fun f => (rows f).map (·.offsets)) = [[some ⟨16, some (-16), none⟩]]) ∧
    (∃ b b' out, SFrameBuilder.Reachable dbg b ∧ SFrameBuilder.Reachable dbg b' ∧ b ≠ b' ∧
      b.build dbg o = .ok (.ok out) ∧ b'.build dbg o = .ok (.ok out) ∧
      (functions b).map (fun f => (rows f).map (·.offsets)) = [[some ⟨-128, some 128, none⟩]] ∧
      (functions b').map (fun f => (rows f).map (·.offsets)) = [[some ⟨-128, some (-128), none⟩]]) := by
  have key : ∀ x y : FrameRowOffsets, ∀ out,
      (FuncDescBuilder.new SFrameOptions.new 0 16).row ⟨0, some x, false, .sp⟩
        = .ok (Samples.oneFn 16 ⟨0, some x, false, .sp⟩) →
      (FuncDescBuilder.new SFrameOptions.new 0 16).row ⟨0, some y, false, .sp⟩
        = .ok (Samples.oneFn 16 ⟨0, some y, false, .sp⟩) → x ≠ y →
      (Samples.one 16 ⟨0, some x, false, .sp⟩).build dbg o = .ok (.ok out) →
      (Samples.one 16 ⟨0, some y, false, .sp⟩).build dbg o = .ok (.ok out) →
      ∃ b b' out, SFrameBuilder.Reachable dbg b ∧ SFrameBuilder.Reachable dbg b' ∧ b ≠ b' ∧
      b.build dbg o = .ok (.ok out) ∧ b'.build dbg o = .ok (.ok out) ∧
      (functions b).map (fun f => (rows f).map (·.offsets)) = [[some x]] ∧
      (functions b').map (fun f => (rows f).map (·.offsets)) = [[some y]] := by
    intro x y out hx hy hne h1 h2
    refine ⟨_, _, out, Samples.one_reachable dbg 16 hx, Samples.one_reachable dbg 16 hy, ?_, h1, h2, rfl, rfl⟩
    intro h
    injection h with _ h
    injection h with h _
    injection h with _ h
    injection h with _ _ _ _ _ h
    injection h with h _
    injection h with _ h
    injection h with _ h
    injection h with h
    exact hne h
  refine ⟨key _ _ (image o (Samples.one 16 ⟨0, some ⟨16, some (-16), none⟩, false, .sp⟩)) ?_ ?_ ?_ ?_ ?_,
    key _ _ (image o (Samples.one 16 ⟨0, some ⟨-128, some (-128), none⟩, false, .sp⟩)) ?_ ?_ ?_ ?_ ?_⟩
  all_goals cases dbg <;> cases o <;> decide +kernel

theorem fixed_inj {x y : Option NonZeroI8}
    (h : (match x with | some v => v.val | none => 0#8) = (match y with | some v => v.val | none => 0#8)) :
    x = y := by
  cases x with
  | none =>
    cases y with
    | none => rfl
    | some y => exact absurd h.symm y.2
  | some x =>
    cases y with
    | none => exact absurd h x.2
    | some y => exact congrArg some (Subtype.ext h)

theorem rowValues_of_view {r r' : FrameRowBuilder} (h : ¬ WidthTie (values r)) (h' : ¬ WidthTie (values r'))
    (hv : rowView r = rowView r') : rowValues r = rowValues r' := by
  have := congrArg FreView.offsets hv
  simp only [rowView] at this
  rw [List.map_congr_left (truncTo_all r |>.2 h), List.map_congr_left (truncTo_all r' |>.2 h')] at this
  exact (List.map_inj_right fun a b => BitVec.eq_of_toInt_eq).1 this

/-- A row that loses nothing is determined by what the reader sees of it. -/
theorem row_of_view {opts : SFrameOptions} {r r' : FrameRowBuilder}
    (hd : FixedDropped opts r) (hd' : FixedDropped opts r')
    (h : ¬ WidthTie (values r)) (h' : ¬ WidthTie (values r'))
    (hr : ∀ x, r.offsets = some x → opts.fixedRa = none → x.fp.isSome → x.ra.isSome)
    (hr' : ∀ x, r'.offsets = some x → opts.fixedRa = none → x.fp.isSome → x.ra.isSome)
    (hv : rowView r = rowView r') : r = r' := by
  have h1 : r.startAddress = r'.startAddress := BitVec.eq_of_toNat_eq (congrArg FreView.start hv)
  have h2 : r.baseReg = r'.baseReg := congrArg FreView.base hv
  have h3 : r.mangled = r'.mangled := congrArg FreView.mangled hv
  have h4 := rowValues_of_view h h' hv
  have h5 : r.offsets = r'.offsets := by
    unfold rowValues FixedDropped at *
    cases ho : r.offsets with
    | none =>
      cases ho' : r'.offsets with
      | none => rfl
      | some x' => simp [ho, ho'] at h4
    | some x =>
      cases ho' : r'.offsets with
      | none => simp [ho, ho'] at h4
      | some x' =>
        obtain ⟨c, ra, fp⟩ := x
        obtain ⟨c', ra', fp'⟩ := x'
        have a1 := hd _ ho
        have a2 := hd' _ ho'
        have a3 := hr _ ho
        have a4 := hr' _ ho'
        simp only [ho, ho'] at h4
        cases hra : opts.fixedRa <;> cases ra <;> cases fp <;> cases ra' <;> cases fp' <;>
          simp_all
  cases r; cases r'; simp_all

/-- **C65 (partial).**  Builders whose rows lose nothing in the encoding are determined by the bytes
built from them.  Missing: the rows with a width tie and those with an FP offset without RA offset, for
which it is false. -/
theorem C65_injective_partial (dbg dbg' d d' : Bool) (o : Endian) (b b' : SFrameBuilder)
    (hb : SFrameBuilder.Reachable d b) (hb' : SFrameBuilder.Reachable d' b') (out : List U8)
    (h : b.build dbg o = .ok (.ok out)) (h' : b'.build dbg' o = .ok (.ok out))
    (hd : ∀ f ∈ functions b, Distinct f) (hd' : ∀ f ∈ functions b', Distinct f) : b = b' := by
  obtain ⟨rfl, _, hfits⟩ := build_ok hb.inv h
  obtain ⟨himg, _, hfits'⟩ := build_ok hb'.inv h'
  have hl := load_image o b hfits
  rw [himg, load_image o b' hfits'] at hl
  have hs : readBack o b' = readBack o b := by injection hl with hl; injection hl
  have hopt : b'.options = b.options := by
    have e1 := congrArg (fun s => s.preamble.flags) hs
    have e2 := congrArg SFrame.abiArch hs
    have e3 := fixed_inj (congrArg SFrame.fixedFp hs)
    have e4 := fixed_inj (congrArg SFrame.fixedRa hs)
    simp only [readBack] at e1 e2
    cases ho : b.options; cases ho' : b'.options
    simp_all
  obtain ⟨es, hes, hlen, hget⟩ := readBack_entries o b hfits
  obtain ⟨es', hes', hlen', hget'⟩ := readBack_entries o b' hfits'
  rw [hs, hes] at hes'
  injection hes' with hes'
  subst hes'
  have hfun : functions b = functions b' := by
    apply List.ext_getElem?
    intro i
    have hlens : (functions b).length = (functions b').length := by
      simp only [functions, List.length_map]; omega
    by_cases hi : i < (functions b).length
    · obtain ⟨f, hf⟩ : ∃ f, (functions b)[i]? = some f := ⟨_, List.getElem?_eq_getElem hi⟩
      obtain ⟨f', hf'⟩ : ∃ f, (functions b')[i]? = some f := ⟨_, List.getElem?_eq_getElem (hlens ▸ hi)⟩
      rw [hf, hf']
      congr 1
      obtain ⟨rest, hr⟩ := hget i f hf
      obtain ⟨rest', hr'⟩ := hget' i f' hf'
      have he := hr.symm.trans hr'
      injection he with he
      have hmem := List.mem_of_getElem? hf
      have hmem' := List.mem_of_getElem? hf'
      obtain ⟨hfi, hfo⟩ := hb.inv.function hmem
      obtain ⟨hfi', hfo'⟩ := hb'.inv.function hmem'
      have hdec := built_decodes hb.inv hfits hf rfl (rest := rest)
      have hdec' := built_decodes hb'.inv hfits' hf' rfl (rest := rest')
      rw [he, hdec'] at hdec
      have hrows : (rows f).map rowView = (rows f').map rowView := by
        have := congrArg (List.filterMap Except.toOption) hdec
        simpa [List.filterMap_map, Function.comp_def, Except.toOption] using this.symm
      have hrows' : rows f = rows f' := by
        apply List.ext_getElem?
        intro j
        have hj := congrArg (·[j]?) hrows
        simp only [List.getElem?_map] at hj
        cases hr1 : (rows f)[j]? with
        | none =>
          cases hr2 : (rows f')[j]? with
          | none => rfl
          | some r' => rw [hr1, hr2] at hj; cases hj
        | some r =>
          cases hr2 : (rows f')[j]? with
          | none => rw [hr1, hr2] at hj; cases hj
          | some r' =>
            rw [hr1, hr2] at hj
            injection hj with hj
            have m1 := List.mem_of_getElem? hr1
            have m2 := List.mem_of_getElem? hr2
            have d1 := hd f hmem r m1
            have d2 := hd' f' hmem' r' m2
            rw [hfo] at d1
            rw [hfo', hopt] at d2
            have fd1 : FixedDropped b.options r := by
              obtain ⟨k, hk, rfl⟩ := List.mem_map.1 m1
              exact hfo ▸ hfi.dropped k hk
            have fd2 : FixedDropped b.options r' := by
              obtain ⟨k, hk, rfl⟩ := List.mem_map.1 m2
              exact hopt ▸ hfo' ▸ hfi'.dropped k hk
            rw [row_of_view fd1 fd2 d1.1 d2.1 d1.2 d2.2 hj]
      have hfres : f.fres = f'.fres := by
        have hk : ∀ {f : FuncDescBuilder}, FdeInv f → f.fres = (rows f).map fun r => (r.startAddress, r) := by
          intro f hf
          unfold rows
          rw [List.map_map]
          conv => lhs; rw [← List.map_id f.fres]
          exact List.map_congr_left fun e he => Prod.ext (hf.key e he) rfl
        rw [hk hfi, hk hfi', hrows']
      injection he with he
      injection he with he
      have g1 := congrArg FdeV2.startAddress he
      have g2 := congrArg FdeV2.size he
      have g3 := congrArg FdeV2.repSize he
      have g4 := congrArg (fun x => x.info.toNat) he
      simp only [fdeOf] at g1 g2 g3 g4
      obtain ⟨_, i1, i2, _⟩ := fdeInfo_width f (addrTy f)
      obtain ⟨_, i1', i2', _⟩ := fdeInfo_width f' (addrTy f')
      rw [g4] at i1 i2
      have g5 : f.repSize.isSome ↔ f'.repSize.isSome := i1.symm.trans i1'
      have g6 : f.pauthKey = .B ↔ f'.pauthKey = .B := i2.symm.trans i2'
      have g7 : f.repSize = f'.repSize := by
        cases h1 : f.repSize <;> cases h2 : f'.repSize <;> simp_all
      have g8 : f.pauthKey = f'.pauthKey := by
        cases h1 : f.pauthKey <;> cases h2 : f'.pauthKey <;> simp_all
      have g9 : f.options = f'.options := by rw [hfo, hfo', hopt]
      cases f; cases f'; simp_all
    · rw [List.getElem?_eq_none (by omega), List.getElem?_eq_none (by omega)]
  have hk : ∀ {b : SFrameBuilder}, BuilderInv b → b.fdes = (functions b).map fun f => (f.startAddress, f) := by
    intro b hb
    unfold functions
    rw [List.map_map]
    conv => lhs; rw [← List.map_id b.fdes]
    exact List.map_congr_left fun e he => Prod.ext (hb.key e he) rfl
  have hfdes : b.fdes = b'.fdes := by rw [hk hb.inv, hk hb'.inv, hfun]
  cases b; cases b'; simp_all

/-- The sample section is the only such builder that is built to its bytes. -/
example (b : SFrameBuilder) (hb : SFrameBuilder.Reachable true b) (hd : ∀ f ∈ functions b, Distinct f)
    (h : b.build false .little = .ok (.ok Samples.secOut)) : b = Samples.sec := by
  refine C65_injective_partial false true true true .little b _ hb (Samples.sec_reachable true) _ h
    (Samples.sec_build true) hd ?_
  intro f hf r hr
  have h : ∀ f ∈ functions Samples.sec, ∀ r ∈ rows f,
      (0x80 ∉ values r ∧ 0x8000 ∉ values r) ∧ f.options.fixedRa ≠ none := by decide +kernel
  obtain ⟨h2, h3⟩ := h f hf r hr
  refine ⟨?_, fun _ _ h => absurd h h3⟩
  rintro ⟨m, rfl | rfl, _, hm, _⟩
  · exact h2.1 hm
  · exact h2.2 hm

end Verif
