import Verif.Props.Api
/-!
# The reader's own lookups in sections of several functions: C70
-/

namespace Verif
open Spec

variable {o : Endian}

/-- Function number `k` of `n` is the one that the search ends at. -/
def Spec.Probed (alg : SearchAlg) (n k : Nat) : Prop :=
  match alg with
  | .v152 => k = n / 2
  | .v182 => n = 1 ∨ n = 2 ∧ k = 1

instance (alg : SearchAlg) (n k : Nat) : Decidable (Probed alg n k) := by
  unfold Probed; cases alg <;> infer_instance

theorem sorted_fres {alg : SearchAlg} {dbg : Bool} {s : SFrame o} {a : I32} {e : FuncDescEntry o}
    (hs : s.flags.toNat % 2 = 1) (h : s.fdeForAddress alg dbg a = .ok (some e)) : e.fres = s.fres := by
  have hs' : Flags.contains s.flags Flags.FDE_SORTED = true := by
    revert hs; generalize s.flags = b; revert b; decide
  rw [fdeForAddress_sorted _ _ _ _ hs', Rust.bind_eq_ok] at h
  obtain ⟨r, _, h⟩ := h
  cases r with
  | error _ => simp at h
  | ok i =>
    simp only [Rust.ok.injEq] at h
    unfold FuncDescIter.nth SFrame.iter at h
    split at h
    · cases h
    · simp only [Option.some.injEq] at h
      rw [← h]

theorem loadHead_indep {fde fde' : Fde} {bs rest : List U8} {q : FrameRowEntry o}
    (ht : FdeInfo.fretype fde'.info = FdeInfo.fretype fde.info)
    (h : FrameRowEntry.load o fde bs = .ok (.ok (q, rest))) (hz : q.startAddressOffset.toNat < fde'.size.toNat) :
    FrameRowEntry.load o fde' bs = .ok (.ok ({ q with fde := fde' }, rest)) := by
  unfold FrameRowEntry.load at h ⊢
  rw [ht]
  generalize FdeInfo.fretype fde.info = ty at h
  cases ty
  case addr1 | addr2 | addr4 =>
    simp only at h ⊢
    split at h
    · cases h
    · split at h
      · cases h
      · rename_i hcnt
        rw [if_neg hcnt]
        split at h
        · cases h
        · split at h
          · cases h
            rw [if_pos hz]
          · cases h
  all_goals cases h

/-- **C70, what the lookups find in a section of several functions**: at an address of function number `k` of `n`,
nothing at all unless the search ends at `k` (with the search of Rust 1.82 and three functions or more, it never does);
else the first row of the first function, if this starts at offset 0 and the functions have row starts of the same
width.  Missing: the rules of the row that covers the address, which is false. -/
theorem C70_several_partial (dbg dbg' dbg'' : Bool) (alg : SearchAlg) (o : Endian) (eh : EhFrame)
    (opts : Options) (b : SFrameBuilder) (h : dwarf2sframe dbg eh opts = .ok (.ok b)) (out : List U8)
    (hb : b.build dbg' o = .ok (.ok out)) :
    ∃ s, SFrame.load o out = .ok (.ok s) ∧
      ∀ (k : Nat) f (a : I32), (functions b)[k]? = some f →
        f.startAddress.toInt ≤ a.toInt → a.toInt < f.startAddress.toInt + f.size.toNat →
        (¬ Probed alg (functions b).length k → apiRulesAt alg dbg'' s a = .ok (.ok none)) ∧
        (Probed alg (functions b).length k → rows f ≠ [] →
          ∀ f0 r0 rest, (functions b)[0]? = some f0 → rows f0 = r0 :: rest → r0.startAddress = 0 →
            startWidth f = startWidth f0 → (∀ r ∈ rows f0, ¬ WidthTie (values r)) →
            apiRulesAt alg dbg'' s a = .ok (.ok (some (meaning b.options r0, false)))) := by
  have hreach := converted_reachable (dbg' := dbg) h
  obtain ⟨s, es, h1, h2, glen, grows⟩ := C52_rows_partial dbg dbg' o eh opts b h out hb
  obtain ⟨s', es', g1, g2, _, gflags, _, _, _, _, _, _, _, gasc, gent⟩ :=
    C30_round_trip dbg' dbg o b hreach out hb
  rw [h1] at g1; cases g1
  rw [h2] at g2; cases g2
  have hsd := built_sorted hreach hb h1 h2
  have hflag : s.flags.toNat % 2 = 1 := by
    rw [gflags, (C43_options dbg eh opts b h).2.2.2]; decide
  obtain ⟨himg, _, hfits⟩ := build_ok hreach.inv hb
  have hsb : s = readBack o b := by
    have := load_image o b hfits
    rw [← himg, h1] at this
    cases this; rfl
  obtain ⟨fdes, hin, hc, hbe⟩ := dwarf2sframe_ok_iff.1 h
  have hfun : ∀ f ∈ functions b, ∃ fde ∈ fdes, f = fnFor (sectionOptions eh opts) opts fde := by
    intro f hf
    rw [hbe] at hf
    obtain ⟨fde', hl', rfl⟩ := (mem_functions (fun g hg => (hc g hg).start) _).1 hf
    exact ⟨fde', hl'.mem, rfl⟩
  have hpos : ∀ e ∈ es, 0 ≤ e.startAddress.toInt := by
    intro e he
    obtain ⟨i, hi⟩ := List.mem_iff_getElem?.1 he
    obtain ⟨hil, _⟩ := List.getElem?_eq_some_iff.1 hi
    have hfi := List.getElem?_eq_getElem (l := functions b) (i := i) (by omega)
    obtain ⟨fde, hm, hfe⟩ := hfun _ (List.mem_of_getElem? hfi)
    rw [(gent i _ e hfi hi).1, hfe, fnFor_start (hc fde hm)]
    omega
  obtain ⟨es2, k1, _, kent⟩ := readBack_entries o b hfits
  rw [← hsb, h2] at k1
  cases k1
  refine ⟨s, h1, fun k f a hk a1 a2 => ?_⟩
  obtain ⟨hkl, _⟩ := List.getElem?_eq_some_iff.1 hk
  have hek := List.getElem?_eq_getElem (l := es) (i := k) (by omega)
  generalize es[k] = e at hek
  obtain ⟨e1, e2, e3, _, _, e6⟩ := gent k f e hk hek
  have hcov : Covers e a := ⟨by rw [e1]; exact a1, by rw [e1, e2]; exact a2⟩
  have hno : ∀ e ∈ es, NoOverflow dbg'' e a := fun e he _ => by
    have := BitVec.toInt_lt (x := a)
    have := hpos e he
    omega
  have hsearch := C16_sorted_lookup_partial (dbg := dbg'') (a := a) h2 hflag hsd hno hek hcov
  rw [glen] at hsearch
  constructor
  · intro hp
    have hnone : s.fdeForAddress alg dbg'' a = .ok none := by
      cases alg with
      | v152 => rw [if_neg (show ¬ k = (functions b).length / 2 from hp)] at hsearch; exact hsearch.1
      | v182 =>
        have h := hsearch.2
        rw [if_neg (show ¬ ((functions b).length = 1 ∨ (functions b).length = 2 ∧ k = 1) from hp)] at h
        exact h
    unfold apiRulesAt
    rw [hnone]
    rfl
  · intro hp hrows f0 r0 rest hf0 hr0 hz hw hties
    obtain ⟨e', he', hfe⟩ : ∃ e', s.fdeForAddress alg dbg'' a = .ok (some e') ∧ e'.fde = e.fde := by
      cases alg with
      | v152 => rw [if_pos (show k = (functions b).length / 2 from hp)] at hsearch; exact hsearch.1
      | v182 =>
        have h := hsearch.2
        rw [if_pos (show (functions b).length = 1 ∨ (functions b).length = 2 ∧ k = 1 from hp)] at h
        exact h
    have hfres := sorted_fres hflag he'
    -- the rows of the first function
    have hlen0 : 0 < es.length := by
      have := (List.getElem?_eq_some_iff.1 hf0).1
      omega
    have he0 := List.getElem?_eq_getElem (l := es) (i := 0) hlen0
    generalize es[0] = e0 at he0
    obtain ⟨qs, r1, r2, r3⟩ := (grows 0 f0 e0 hf0 he0).2 hties
    obtain ⟨q, hq0⟩ : ∃ q, qs[0]? = some q :=
      ⟨_, List.getElem?_eq_getElem (l := qs) (i := 0) (by rw [r2, hr0]; simp)⟩
    have hsame := r3 0 r0 q (by rw [hr0]; rfl) hq0
    have hstart : q.startAddressOffset.toNat = 0 := by rw [hsame.start, hz]; rfl
    have hmangled : q.mangled = false := by
      rw [hsame.mangled]
      obtain ⟨fde, hm, hfe⟩ := hfun f0 (List.mem_of_getElem? hf0)
      have hmem : r0 ∈ rows (fnFor (sectionOptions eh opts) opts fde) := by rw [← hfe, hr0]; exact List.mem_cons_self ..
      obtain ⟨d, _, hd⟩ := fnFor_rows (sectionOptions_fp eh opts) (hc fde hm) hmem
      rw [hd]
      rfl
    have hload : ∃ left, FrameRowEntry.load o e0.fde e0.fres = .ok (.ok (q, left)) := by
      rw [FuncDescEntry.collect_eq] at r1
      cases hn : e0.fde.numFres.toNat with
      | zero =>
        rw [hn, readRows] at r1
        have := congrArg List.length (Rust.ok.inj r1)
        rw [List.length_map, r2, hr0] at this
        simp at this
      | succ n =>
        rw [hn, readRows, Rust.bind_eq_ok] at r1
        obtain ⟨x, hx, r1⟩ := r1
        cases qs with
        | nil => cases hq0
        | cons q1 qs =>
          cases x with
          | error _ => cases r1
          | ok x =>
            simp only [Rust.bind_eq_ok] at r1
            obtain ⟨y, _, r1⟩ := r1
            cases r1
            cases hq0
            exact ⟨x.2, hx⟩
    -- the entry that the search ends at
    obtain ⟨rest0, t0⟩ := kent 0 f0 hf0
    rw [he0] at t0
    have t0 := Option.some.inj t0
    obtain ⟨restk, tk⟩ := kent k f hk
    rw [hek] at tk
    have tk := Option.some.inj tk
    have hfres0 : e0.fres = s.fres := by
      rw [FuncDescIter.collect_eq] at h2
      have := Rust.ok.inj h2
      rw [← this] at he0
      rw [List.getElem?_map, Option.map_eq_some_iff] at he0
      obtain ⟨fde0, _, hent⟩ := he0
      have hoff : e0.fde.startFreOff = 0 := by
        rw [t0]
        simp [Fde.startFreOff, fdeOf, chunkPos, chunks]
      rw [← hent] at hoff ⊢
      show s.fres.drop fde0.startFreOff.toNat = s.fres
      rw [show fde0.startFreOff = 0 from hoff]
      rfl
    obtain ⟨left, hload⟩ := hload
    have hty : FdeInfo.fretype e'.fde.info = FdeInfo.fretype e0.fde.info := by
      obtain ⟨hfi, _⟩ := hreach.inv.function (List.mem_of_getElem? hk)
      obtain ⟨hfi0, _⟩ := hreach.inv.function (List.mem_of_getElem? hf0)
      rw [startWidth_eq hfi, startWidth_eq hfi0] at hw
      have hat : addrTy f = addrTy f0 := by
        revert hw
        cases addrTy f <;> cases addrTy f0 <;> first | (intro _; rfl) | (intro h; cases h)
      obtain ⟨g, _, hg⟩ := hfun f (List.mem_of_getElem? hk)
      obtain ⟨g0, _, hg0⟩ := hfun f0 (List.mem_of_getElem? hf0)
      rw [hfe, tk, t0]
      show FdeInfo.fretype (SFrameBuilder.fdeInfo f (addrTy f)) = FdeInfo.fretype (SFrameBuilder.fdeInfo f0 (addrTy f0))
      rw [← hat]
      unfold SFrameBuilder.fdeInfo FuncDescBuilder.fdetype
      rw [hg, hg0, (fnFor_fields _ _ _).2.2.2.1, (fnFor_fields _ _ _).2.2.2.1, (fnFor_fields _ _ _).2.2.2.2,
        (fnFor_fields _ _ _).2.2.2.2]
    have hcov' : Covers e' a := by
      unfold Covers FuncDescEntry.startAddress FuncDescEntry.size
      rw [hfe]
      exact hcov
    have hload' := loadHead_indep hty hload (by
      rw [hstart]
      have := hcov'
      unfold Covers FuncDescEntry.startAddress FuncDescEntry.size at this
      omega)
    have hno' : NoOverflow dbg'' e' a := by
      have := hno e (List.mem_of_getElem? hek)
      unfold NoOverflow FuncDescEntry.startAddress at this ⊢
      rw [hfe]
      exact this
    obtain ⟨rel, hrel, hget⟩ := getFre_in_range hcov' hno'
    have htype : e'.fdetype = .pcInc := by
      unfold FuncDescEntry.fdetype at e3 ⊢
      rw [hfe, e3]
      obtain ⟨g, _, hg⟩ := hfun f (List.mem_of_getElem? hk)
      rw [hg, (fnFor_fields _ _ _).2.2.2.1]
      rfl
    rw [htype] at hget
    simp only [FuncDescEntry.scan_eq] at hget
    have hnum : e'.fde.numFres.toNat = (rows f).length := by rw [hfe]; exact e6
    obtain ⟨n, hn⟩ : ∃ n, (rows f).length = n + 1 :=
      ⟨(rows f).length - 1, by have := List.length_pos_iff.2 hrows; omega⟩
    rw [hnum, hn, scanRows, hfres, ← hfres0, hload', Rust.bind_ok] at hget
    simp only [hstart, ge_iff_le, Nat.zero_le, decide_true, if_true] at hget
    unfold apiRulesAt
    rw [he', Rust.bind_ok]
    simp only
    rw [hget, Rust.bind_ok]
    have hrr : readRules s { q with fde := e'.fde } = readRules s q := rfl
    have hmm : ({ q with fde := e'.fde } : FrameRowEntry o).mangled = q.mangled := rfl
    simp only
    rw [hrr, hmm, readRules_eq hsame, hmangled]

/-- The two functions of the witness meet the hypotheses; the search ends at the second. -/
example (dbg : Bool) :
    dwarf2sframe dbg (Samples.ehOf Samples.apiFdes) Samples.convOpts = .ok (.ok Samples.apiB) ∧
    Samples.apiB.build dbg .little = .ok (.ok (image .little Samples.apiB)) ∧
    (functions Samples.apiB).length = 2 ∧
    (∀ alg, ¬ Probed alg 2 0 ∧ Probed alg 2 1) ∧ (∀ k < 7, ¬ Probed .v182 7 k) ∧
    (functions Samples.apiB).map startWidth = [1, 1] ∧
    (functions Samples.apiB).map (fun f => (rows f).map fun r => (r.startAddress, values r)) =
      [[(0, [8])], [(0, [64])]] := by
  refine ⟨by cases dbg <;> decide +kernel, by cases dbg <;> decide +kernel, rfl, fun alg => ?_, by decide, by decide +kernel,
    by decide +kernel⟩
  cases alg <;> decide

end Verif
