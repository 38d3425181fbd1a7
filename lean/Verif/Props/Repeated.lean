import Verif.Props.Appended
/-!
# C142: entries that are repeated later
-/

namespace Verif
open Spec

theorem inputs_holding (eh : EhFrame) (zs xs : List (Except GErr Entry)) (bases : Bases) :
    inputs (holding eh (zs ++ xs)) bases = inputs (holding eh zs) bases ++ inputs (holding eh xs) bases := by
  simp only [inputs_inputOf]
  exact List.filterMap_append

theorem inputs_subset (eh : EhFrame) (zs xs : List (Except GErr Entry)) (bases : Bases) (h : ∀ x ∈ zs, x ∈ xs) :
    ∀ y ∈ inputs (holding eh zs) bases, y ∈ inputs (holding eh xs) bases := by
  simp only [inputs_inputOf]
  intro y hy
  obtain ⟨x, hx, hxy⟩ := List.mem_filterMap.1 hy
  exact List.mem_filterMap.2 ⟨x, h x hx, hxy⟩

theorem oks_subset {A : List (Except ConvError DwFde)} {b : List DwFde} (h : ∀ y ∈ A, y ∈ b.map Except.ok) :
    ∃ a : List DwFde, A = a.map .ok ∧ ∀ f ∈ a, f ∈ b := by
  induction A with
  | nil => exact ⟨[], rfl, fun _ hf => nomatch hf⟩
  | cons y A ih =>
    obtain ⟨a, rfl, ha⟩ := ih fun z hz => h z (List.mem_cons_of_mem _ hz)
    obtain ⟨f, hf, rfl⟩ := List.mem_map.1 (h y List.mem_cons_self)
    refine ⟨f :: a, rfl, fun g hg => ?_⟩
    rcases List.mem_cons.1 hg with rfl | hg
    · exact hf
    · exact ha g hg

theorem output_repeated (so : SFrameOptions) (opts : Options) {a b : List DwFde} (h : ∀ f ∈ a, f ∈ b) :
    outputOf so opts (a ++ b) = outputOf so opts b := by
  have heq : addAll so opts [] (a ++ b) = addAll so opts [] b := by
    have hsort : ∀ l, (addAll so opts [] l).Sorted ordI32 := fun l =>
      output_sorted (b := SFrameBuilder.new _) (by simp [SFrameBuilder.new, BMap.Sorted])
    refine BMap.ext (ord := ordI32) (fun {_ _} h => ordI32_inj.1 h) (hsort _) (hsort _) fun k => ?_
    rw [addAll_get _ _ _ (by simp [BMap.Sorted]), addAll_get _ _ _ (by simp [BMap.Sorted]), List.reverse_append,
      List.find?_append]
    cases hb : b.reverse.find? _ with
    | some f => rfl
    | none =>
      rw [List.find?_eq_none] at hb
      rw [List.find?_eq_none.2 fun f hf => hb f (List.mem_reverse.2 (h f (List.mem_reverse.1 hf)))]
      rfl
  unfold outputOf SFrameBuilder.more SFrameBuilder.new
  simp only
  rw [heq]

/-- **C142.**  Entries that come once more later, in any order and number, change nothing: the conversion succeeds with
them exactly if it does without, with the same result. -/
theorem C142_repeated (dbg : Bool) (eh : EhFrame) (opts : Options) (zs xs : List (Except GErr Entry))
    (h : ∀ x ∈ zs, x ∈ xs) (b : SFrameBuilder) :
    dwarf2sframe dbg (holding eh (zs ++ xs)) opts = .ok (.ok b) ↔
      dwarf2sframe dbg (holding eh xs) opts = .ok (.ok b) := by
  rw [dwarf2sframe_ok_iff, dwarf2sframe_ok_iff, inputs_holding]
  have hs : sectionOptions (holding eh (zs ++ xs)) opts = sectionOptions (holding eh xs) opts :=
    sectionOptions_congr opts rfl
  rw [hs]
  have hsub := inputs_subset eh zs xs opts.bases h
  constructor
  · rintro ⟨fdes, hin, hc, rfl⟩
    obtain ⟨f1, f2, rfl, h1, h2⟩ := List.map_eq_append_iff.1 hin.symm
    rw [← h1, ← h2] at hsub
    refine ⟨f2, h2.symm, fun f hf => hc f (List.mem_append_right _ hf), output_repeated _ _ fun f hf => ?_⟩
    obtain ⟨g, hg, hgf⟩ := List.mem_map.1 (hsub _ (List.mem_map_of_mem hf))
    cases hgf
    exact hg
  · rintro ⟨f2, hin, hc, rfl⟩
    rw [hin] at hsub
    obtain ⟨f1, h1, hf⟩ := oks_subset hsub
    refine ⟨f1 ++ f2, by rw [h1, hin, List.map_append], fun f hm => ?_, (output_repeated _ _ hf).symm⟩
    rcases List.mem_append.1 hm with hm | hm
    · exact hc f (hf f hm)
    · exact hc f hm

/-- **C142**, the legacy converter. -/
theorem C142_legacy (dbg : Bool) (eh : EhFrame) (bases : Bases) (zs xs : List (Except GErr Entry))
    (h : ∀ x ∈ zs, x ∈ xs) (b : SFrameBuilder) :
    legacyConvert dbg (holding eh (zs ++ xs)) bases = .ok (.ok b) ↔
      legacyConvert dbg (holding eh xs) bases = .ok (.ok b) := by
  rw [legacyConvert_iff, legacyConvert_iff, inputs_holding]
  have hsub := inputs_subset eh zs xs bases h
  have htidy : ∀ f1 f2 : List DwFde, (∀ f ∈ f1, f ∈ f2) →
      outputOf legacyOptions (legacyLike bases) ((f1 ++ f2).map tidyFde) =
        outputOf legacyOptions (legacyLike bases) (f2.map tidyFde) := by
    intro f1 f2 hf
    rw [List.map_append]
    refine output_repeated _ _ fun g hg => ?_
    obtain ⟨f, hf1, rfl⟩ := List.mem_map.1 hg
    exact List.mem_map_of_mem (hf f hf1)
  constructor
  · rintro ⟨fdes, hin, hc, rfl⟩
    obtain ⟨f1, f2, rfl, h1, h2⟩ := List.map_eq_append_iff.1 hin.symm
    rw [← h1, ← h2] at hsub
    refine ⟨f2, h2.symm, fun f hf => hc f (List.mem_append_right _ hf), htidy _ _ fun f hf => ?_⟩
    obtain ⟨g, hg, hgf⟩ := List.mem_map.1 (hsub _ (List.mem_map_of_mem hf))
    cases hgf
    exact hg
  · rintro ⟨f2, hin, hc, rfl⟩
    rw [hin] at hsub
    obtain ⟨f1, h1, hf⟩ := oks_subset hsub
    refine ⟨f1 ++ f2, by rw [h1, hin, List.map_append], fun f hm => ?_, (htidy _ _ hf).symm⟩
    rcases List.mem_append.1 hm with hm | hm
    · exact hc f (hf f hm)
    · exact hc f hm

/-- Two functions, repeated in another order; a third entry that starts where one of them does and comes last is not
a repetition, and the result is another. -/
example (dbg : Bool) :
    let f : DwFde := Samples.dwFde
    let g : DwFde := { Samples.dwFde with
      initial := 0x3000, rows := .ok [.ok { Samples.dwRow3 with start := 0x3000, end_ := 0x3001 }] }
    let f' : DwFde := { f with rows := .ok [.ok Samples.dwRow1] }
    let run := fun fdes => dwarf2sframe dbg (Samples.ehOf fdes) Samples.convOpts
    run [g, f, f, f, g] = run [f, g] ∧ run [f, g, f'] ≠ run [f, g] ∧
    (match run [f, g] with
      | .ok (.ok b) => (functions b).length
      | _ => 0) = 2 := by
  cases dbg <;> decide +kernel

/-- Entries that are not converted stand in the way of the success of both. -/
example (dbg : Bool) :
    let g : DwFde := { Samples.dwFde with len := 0x80000000 }
    let run := fun fdes => dwarf2sframe dbg (Samples.ehOf fdes) Samples.convOpts
    run [g, Samples.dwFde, g] = .ok (.error (.invalidFunctionLength 0x1000 0x80000000)) ∧
    run [Samples.dwFde, g] = .ok (.error (.invalidFunctionLength 0x1000 0x80000000)) := by
  cases dbg <;> decide +kernel

/-- The legacy converter. -/
example (dbg : Bool) :
    let at_ : U64 → DwFde := fun a => { Samples.dwFde with
      initial := a, rows := .ok [.ok { Samples.dwRow3 with start := a, end_ := a + 1 }] }
    let f := at_ 0x1000
    let g := at_ 0x3000
    let run := fun fdes => legacyConvert dbg (Samples.ehOf fdes) Bases.default
    run [g, f, f, f, g] = run [f, g] ∧ run [f, g, { f with len := 0x30 }] ≠ run [f, g] ∧
    (match run [f, g] with
      | .ok (.ok b) => (functions b).length
      | _ => 0) = 2 := by
  cases dbg <;> decide +kernel

end Verif
