import Verif.Props.Alone
/-!
# C138: the run on a section is made of those on its entries
-/

namespace Verif
namespace Spec

/-- What is printed and how it ends, without the result. -/
def ended {ω ε α : Type} (t : List ω × Rust (Except ε α)) : List ω × Rust (Except ε Unit) := (t.1, ending t.2)

/-- Several runs one after the other, up to the first one that does not succeed. -/
def inSequence {ω ε : Type} : List (List ω × Rust (Except ε Unit)) → List ω × Rust (Except ε Unit)
  | [] => ([], .ok (.ok ()))
  | (out, .ok (.ok ())) :: rs => (out ++ (inSequence rs).1, (inSequence rs).2)
  | r :: _ => r

end Spec
open Spec

theorem inSequence_one {ω ε : Type} (r : List ω × Rust (Except ε Unit)) : inSequence [r] = r := by
  obtain ⟨out, (e | u) | p | _⟩ := r
  · rfl
  · show (out ++ [], _) = _
    rw [List.append_nil]
    rfl
  · rfl
  · rfl

/-- The inputs of a section stand for its entries. -/
theorem inSequence_filterMap {α β ω ε : Type} (f : α → Option β) (g : β → List ω × Rust (Except ε Unit))
    (l : List α) :
    inSequence ((l.filterMap f).map g) =
      inSequence (l.map fun x => inSequence (([x].filterMap f).map g)) := by
  induction l with
  | nil => rfl
  | cons x l ih =>
    rw [List.filterMap_cons, List.map_cons, List.filterMap_cons, List.filterMap_nil]
    cases f x with
    | none => exact ih
    | some y =>
      simp only [List.map_cons, List.map_nil]
      rw [inSequence_one]
      obtain ⟨out, (e | u) | p | _⟩ := g y
      · rfl
      · show (out ++ _, _) = (out ++ _, _)
        rw [ih]
      · rfl
      · rfl

/-! ### The converter -/

theorem fde_alike {b b' : SFrameBuilder} (f : FuncDescBuilder) (ho : b'.options = b.options) :
    (b'.fde f = .ok { b' with fdes := b'.fdes.insert ordI32 f.startAddress f } ∧
      b.fde f = .ok { b with fdes := b.fdes.insert ordI32 f.startAddress f }) ∨
    (b'.fde f = .panic .assertion ∧ b.fde f = .panic .assertion) := by
  by_cases h : b.options = f.options
  · exact .inl ⟨if_pos (ho.trans h), if_pos h⟩
  · exact .inr ⟨if_neg (by rw [ho]; exact h), if_neg h⟩

theorem ended_bind {ε γ β : Type} (x : Traced γ) {f f' : γ → Traced (Except ε β)}
    (h : ∀ a, ended (f a) = ended (f' a)) : ended (x.bind f) = ended (x.bind f') := by
  obtain ⟨ls, a | p | _⟩ := x
  · have h1 := congrArg Prod.fst (h a)
    have h2 := congrArg Prod.snd (h a)
    exact Prod.ext (congrArg (ls ++ ·) h1) h2
  · rfl
  · rfl

/-- What is printed for a function, and how it ends, does not depend on those before. -/
theorem convertFdeT_ended (dbg : Bool) (g : GimliText) (opts : Options) (fde : DwFde) {b b' : SFrameBuilder}
    (ho : b'.options = b.options) :
    ended (convertFdeT dbg g opts b' fde) = ended (convertFdeT dbg g opts b fde) := by
  unfold convertFdeT
  rw [ho]
  refine ended_bind _ fun r => ?_
  cases r with
  | error e => rfl
  | ok u =>
    simp only
    split
    · rfl
    · split
      · rfl
      · cases fde.rows with
        | error e => rfl
        | ok rows =>
          simp only
          refine ended_bind _ fun r => ?_
          cases r with
          | error e => rfl
          | ok f =>
            simp only
            generalize (if opts.mergeFres = true then f.mergeAdjacentFres else .ok f) = m
            cases m with
            | panic p => rfl
            | diverge => rfl
            | ok f' =>
              simp only [Traced.lift, Traced.bind]
              rcases fde_alike f' ho with ⟨h1, h2⟩ | ⟨h1, h2⟩ <;> rw [h1, h2] <;> rfl

/-- The run on one input. -/
def runOne (dbg : Bool) (g : GimliText) (opts : Options) (so : SFrameOptions) :
    Except ConvError DwFde → List Event × Rust (Except ConvError Unit)
  | .error e => ([], .ok (.error e))
  | .ok fde => ended (convertFdeT dbg g opts (SFrameBuilder.new so) fde)

theorem convertInputsT_ended (dbg : Bool) (g : GimliText) (opts : Options) (so : SFrameOptions)
    (hfp : so.fixedFp = none) (xs : List (Except ConvError DwFde)) (b : SFrameBuilder) (hb : b.options = so) :
    ended (convertInputsT dbg g opts xs b) = inSequence (xs.map (runOne dbg g opts so)) := by
  induction xs generalizing b with
  | nil => rfl
  | cons x xs ih =>
    cases x with
    | error e => rfl
    | ok fde =>
      rw [List.map_cons, convertInputsT, runOne, ← convertFdeT_ended dbg g opts fde (b' := b) hb]
      rcases convertFdeT_cases dbg g opts b fde (by rw [hb]; exact hfp) with ⟨_, b', hb', h, _⟩ | ⟨h, _⟩
      · revert h
        obtain ⟨out, r⟩ := (convertFdeT dbg g opts b fde)
        rintro ⟨⟩
        have ih := ih b' (hb'.trans hb)
        have h4 := congrArg Prod.fst ih
        have h5 := congrArg Prod.snd ih
        exact Prod.ext (congrArg (out ++ ·) h4) h5
      · revert h
        obtain ⟨out, (e | u) | p | _⟩ := (convertFdeT dbg g opts b fde)
        · intro h
          refine Prod.ext ?_ rfl
          exact List.append_nil out
        · intro h
          exact absurd rfl (h u)
        · intro h
          rfl
        · intro h
          rfl

theorem dwarf2sframeT_ended (dbg : Bool) (g : GimliText) (eh : EhFrame) (opts : Options) :
    ended (dwarf2sframeT dbg g eh opts) =
      inSequence ((inputs eh opts.bases).map (runOne dbg g opts (sectionOptions eh opts))) := by
  have hfp := sectionOptions_fp eh opts
  rw [← convertInputsT_ended dbg g opts _ hfp _ (SFrameBuilder.new (sectionOptions eh opts)) rfl]
  refine Prod.ext (dwarf2sframeT_loop dbg g eh opts) ?_
  show ending _ = ending _
  rcases convertInputsT_cases dbg g opts (inputs eh opts.bases) (SFrameBuilder.new (sectionOptions eh opts)) hfp with
    ⟨fdes, h1, h2, ⟨b', h3⟩, _⟩ | ⟨_, _, _, _, _, _, _, h3, _⟩
  · rw [C91_result, dwarf2sframe_ok_iff.2 ⟨fdes, h1, h2, rfl⟩, h3]
    rfl
  · rw [dwarf2sframeT_eq]
    revert h3
    obtain ⟨out, (e | u) | p | _⟩ :=
      convertInputsT dbg g opts (inputs eh opts.bases) (SFrameBuilder.new (sectionOptions eh opts))
    · intro _
      rfl
    · intro h3
      exact absurd rfl (h3 u)
    · intro _
      rfl
    · intro _
      rfl

/-- **C138.**  What the conversion of a section prints, on both streams in one order, and how it ends, is made of
what the conversions of its entries alone print, one after the other, up to the first that does not succeed. -/
theorem C138_run (dbg : Bool) (g : GimliText) (eh : EhFrame) (opts : Options) :
    ended (dwarf2sframeT dbg g eh opts) =
      inSequence ((eh.entries opts.bases).map fun x => ended (dwarf2sframeT dbg g (alone eh x) opts)) := by
  simp only [dwarf2sframeT_ended, inputs_inputOf]
  exact inSequence_filterMap _ _ _

/-! ### The legacy converter -/

theorem ended_bind1 {ε γ β : Type} (x : Shown γ) {f f' : γ → Shown (Except ε β)}
    (h : ∀ a, ended (f a) = ended (f' a)) : ended (x.bind f) = ended (x.bind f') := by
  obtain ⟨ls, a | p | _⟩ := x
  · have h1 := congrArg Prod.fst (h a)
    have h2 := congrArg Prod.snd (h a)
    exact Prod.ext (congrArg (ls ++ ·) h1) h2
  · rfl
  · rfl

theorem legacyFdeT_ended (dbg : Bool) (t : LegacyText) (a : ObjArch) (fde : DwFde) {b b' : SFrameBuilder}
    (ho : b'.options = b.options) :
    ended (legacyFdeT dbg t a b' fde) = ended (legacyFdeT dbg t a b fde) := by
  unfold legacyFdeT
  rw [ho]
  split
  · rfl
  · split
    · rfl
    · simp only
      cases fde.rows with
      | error e => rfl
      | ok rows =>
        simp only
        refine ended_bind1 _ fun _ => ended_bind1 _ fun _ => ended_bind1 _ fun _ => ended_bind1 _ fun _ => ?_
        cases (listInstructions true t.name t.error fde.instructions).2 with
        | error e => rfl
        | ok u =>
          simp only
          refine ended_bind1 _ fun _ => ended_bind1 _ fun r => ?_
          cases r with
          | error e => rfl
          | ok f =>
            simp only
            refine ended_bind1 _ fun f' => ?_
            rcases fde_alike f' ho with ⟨h1, h2⟩ | ⟨h1, h2⟩ <;> rw [h1, h2] <;> rfl

/-- The run of the legacy converter on one entry. -/
def runOne1 (dbg : Bool) (t : LegacyText) (a : ObjArch) (eh : EhFrame) (bases : Bases) :
    Except GErr Entry → List Event1 × Rust (Except LegacyError Unit)
  | .error e => ([], .ok (.error (.entry e)))
  | .ok .cie => ([], .ok (.ok ()))
  | .ok (.fde off parse) =>
    match parse (eh.cieFromOffset bases off) with
    | .error e => ([], .ok (.error (.parse e)))
    | .ok fde => ended (legacyFdeT dbg t a (SFrameBuilder.new legacyOptions) fde)

theorem legacyEntriesT_ended (dbg : Bool) (t : LegacyText) (a : ObjArch) (eh : EhFrame) (bases : Bases)
    (es : List (Except GErr Entry)) (cies : List (Nat × Except GErr Cie)) (b : SFrameBuilder)
    (hc : CacheOk (Options.new .amd64 bases) eh cies) (hb : b.options = legacyOptions) :
    ended (legacyEntriesT dbg t a eh bases es cies b) = inSequence (es.map (runOne1 dbg t a eh bases)) := by
  induction es generalizing cies b with
  | nil => rfl
  | cons x es ih =>
    rw [List.map_cons]
    cases x with
    | error e => rfl
    | ok x =>
      cases x with
      | cie => exact ih cies b hc hb
      | fde off parse =>
        obtain ⟨h1, h2⟩ := lookupCie_ok hc off
        have h1 : (lookupCie (Options.new .amd64 bases) eh cies off).1 = eh.cieFromOffset bases off := h1
        rw [legacyEntriesT, h1, runOne1]
        cases parse (eh.cieFromOffset bases off) with
        | error e => rfl
        | ok fde =>
          simp only
          rw [← legacyFdeT_ended dbg t a fde (b := SFrameBuilder.new legacyOptions) (b' := b) hb]
          have h3 := legacyFdeT_snd dbg t a b fde
          revert h3
          obtain ⟨out, (e | u) | p | _⟩ := legacyFdeT dbg t a b fde
          · intro _
            exact Prod.ext (List.append_nil out) rfl
          · intro h3
            obtain ⟨_, rfl⟩ := (legacyFde_iff bases hb).1 h3.symm
            have ih := ih (lookupCie (Options.new .amd64 bases) eh cies off).2 _ h2
              (show (b.more (legacyLike bases) [tidyFde fde]).options = _ from hb)
            have h4 := congrArg Prod.fst ih
            have h5 := congrArg Prod.snd ih
            exact Prod.ext (congrArg (out ++ ·) h4) h5
          · intro _
            rfl
          · intro _
            rfl

theorem legacyConvertT_ended (dbg : Bool) (t : LegacyText) (a : ObjArch) (eh : EhFrame) (bases : Bases) :
    ended (legacyConvertT dbg t a eh bases) = inSequence ((eh.entries bases).map (runOne1 dbg t a eh bases)) := by
  rw [← legacyEntriesT_ended dbg t a eh bases _ [] (SFrameBuilder.new legacyOptions) (by simp [CacheOk]) rfl]
  refine Prod.ext ?_ ?_
  · show (legacyConvertT dbg t a eh bases).1 = (legacyEntriesT _ _ _ _ _ _ _ _).1
    unfold legacyConvertT
    obtain ⟨out, (e | u) | p | _⟩ :=
      legacyEntriesT dbg t a eh bases (eh.entries bases) [] (SFrameBuilder.new legacyOptions)
    · exact List.append_nil out
    · show out ++ _ = out
      refine (congrArg (out ++ ·) ?_).trans (List.append_nil out)
      dsimp only
      cases u.mergeAdjacentFdes dbg <;> rfl
    · rfl
    · rfl
  · show ending (legacyConvertT dbg t a eh bases).2 = ending (legacyEntriesT _ _ _ _ _ _ _ _).2
    rw [legacyConvertT_snd, legacyEntriesT_snd, legacyConvert_ending]

/-- **C138**, the legacy converter. -/
theorem C138_legacy (dbg : Bool) (t : LegacyText) (a : ObjArch) (eh : EhFrame) (bases : Bases) :
    ended (legacyConvertT dbg t a eh bases) =
      inSequence ((eh.entries bases).map fun x => ended (legacyConvertT dbg t a (alone eh x) bases)) := by
  have h : ∀ x, ended (legacyConvertT dbg t a (alone eh x) bases) = runOne1 dbg t a eh bases x := by
    intro x
    rw [legacyConvertT_ended]
    exact inSequence_one _
  simp only [h]
  exact legacyConvertT_ended dbg t a eh bases

/-- Three functions of which the second has a row that is too far away: the dump ends with this row, and nothing
is printed for the third. -/
example (dbg : Bool) :
    let f : U64 → U64 → DwFde := fun a r => { Samples.dwFde with
      initial := a, rows := .ok [.ok { Samples.dwRow3 with start := r, end_ := r + 1 }] }
    let run := fun fdes => ended (dwarf2sframeT dbg Samples.names (Samples.ehOf fdes)
      { Samples.convOpts with debugdump := true, warnings := true })
    run [f 0x1000 0x1000, f 0x3000 0x100003000, f 0x5000 0x5000] =
      ((run [f 0x1000 0x1000]).1 ++ (run [f 0x3000 0x100003000]).1,
        .ok (.error (.invalidRowOffset 0x100003000 0x100000000))) ∧
    (run [f 0x1000 0x1000]).2 = .ok (.ok ()) ∧
    (run [f 0x3000 0x100003000]).2 = .ok (.error (.invalidRowOffset 0x100003000 0x100000000)) ∧
    3 ≤ (run [f 0x3000 0x100003000]).1.length := by
  cases dbg <;> decide +kernel

/-- The same with the legacy tool. -/
example (dbg : Bool) :
    let f : U64 → U64 → DwFde := fun a r => { Samples.dwFde with
      initial := a, rows := .ok [.ok { Samples.dwRow3 with start := r, end_ := r + 1 }] }
    let run := fun fdes => ended (legacyConvertT dbg Samples.legacyText .x86_64 (Samples.ehOf fdes) Bases.default)
    run [f 0x1000 0x1000, f 0x3000 0x100003000, f 0x5000 0x5000] =
      ((run [f 0x1000 0x1000]).1 ++ (run [f 0x3000 0x100003000]).1, .ok (.error .rowOffset)) ∧
    (run [f 0x1000 0x1000]).2 = .ok (.ok ()) ∧
    (run [f 0x3000 0x100003000]).2 = .ok (.error .rowOffset) ∧
    3 ≤ (run [f 0x3000 0x100003000]).1.length := by
  cases dbg <;> decide +kernel

end Verif
