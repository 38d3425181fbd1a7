import Verif.Proofs.Printing
/-!
# The same for the legacy converter
-/

namespace Verif

open Spec

section
variable {ε α β : Type}

/-- `x` prints as `y` does, and no listing of instructions. -/
def Quiet (x : Printing ε α) (y : List ε × Rust α) : Prop :=
  ∀ fail k n, x k n = cutAt k fail (y.1.map (·, false)) y.2 n

theorem Quiet.follows {x : Printing ε α} {y : List ε × Rust α} (h : Quiet x y) (fail : Rust α) : Follows x y fail :=
  ⟨y.1.map (·, false), map_tag _ _, fun k n => h fail k n⟩

theorem quiet_lift (x : Rust α) : Quiet (Printing.lift x : Printing ε α) ([], x) := fun _ _ _ => rfl

theorem quiet_say (l : List ε) : Quiet (Printing.say l) (l, .ok ()) := by
  intro fail k n
  induction l generalizing n with
  | nil => rfl
  | cons e l ih =>
    simp only [Printing.say, List.map_cons, cutAt]
    rw [ih (n + 1)]
    rfl

theorem quiet_bind {x : Printing ε α} {y : List ε × Rust α} {f : α → Printing ε β} {g : α → List ε × Rust β}
    (hx : Quiet x y) (hg : ∀ a, y.2 = .ok a → Quiet (f a) (g a)) : Quiet (x.bind f) (thenT y g) := by
  obtain ⟨ys, r⟩ := y
  intro fail k n
  have key : ¬ (∀ i, i < (ys.map (·, false)).length → k (n + i) = true) → ∀ (es' : List (ε × Bool)) (r' : Rust β),
      (x.bind f) k n = cutAt k fail (ys.map (·, false) ++ es') r' n := by
    intro hc es' r'
    obtain ⟨pre, e, post, h1, -, -, h4⟩ := cutAt_refused (ys.map (·, false)) n hc
    have he : e.2 = false := by
      have : e ∈ ys.map (·, false) := by rw [h1]; simp
      obtain ⟨a, -, rfl⟩ := List.mem_map.1 this
      rfl
    rw [cutAt_append, if_neg hc, h4]
    unfold Printing.bind
    rw [hx .diverge k n]
    simp only [h4, he]
    rfl
  cases r with
  | ok b =>
    have hb := hg b rfl
    show _ = cutAt k fail ((ys ++ (g b).1).map (·, false)) (g b).2 n
    rw [List.map_append]
    by_cases hc : ∀ i, i < (ys.map (·, false)).length → k (n + i) = true
    · rw [cutAt_append, if_pos hc]
      unfold Printing.bind
      rw [hx .diverge k n]
      simp only [cutAt_open _ _ _ _ hc]
      rw [hb fail]
    · exact key hc _ _
  | panic p =>
    show _ = cutAt k fail (ys.map (·, false)) (.panic p) n
    by_cases hc : ∀ i, i < (ys.map (·, false)).length → k (n + i) = true
    · rw [cutAt_open _ _ _ _ hc]
      unfold Printing.bind
      rw [hx .diverge k n]
      simp only [cutAt_open _ _ _ _ hc]
    · simpa using key hc [] (.panic p)
  | diverge =>
    show _ = cutAt k fail (ys.map (·, false)) .diverge n
    by_cases hc : ∀ i, i < (ys.map (·, false)).length → k (n + i) = true
    · rw [cutAt_open _ _ _ _ hc]
      unfold Printing.bind
      rw [hx .diverge k n]
      simp only [cutAt_open _ _ _ _ hc]
    · simpa using key hc [] .diverge

end

section
variable {α β : Type}

theorem shown_pure (a : α) : Quiet (Printing.pure a : Printing Event1 α) (Shown.pure a) := quiet_lift _

theorem shown_next {x : Printing Event1 α} {y : Shown α} {f : α → Printing Event1 β} {g : α → Shown β}
    (hx : Quiet x y) (hg : ∀ a, y.2 = .ok a → Quiet (f a) (g a)) : Quiet (x.bind f) (y.bind g) := quiet_bind hx hg

theorem shown_say {es : List Event1} {f : Unit → Printing Event1 β} {g : Unit → Shown β}
    (h : Quiet (f ()) (g ())) : Quiet ((Printing.say es).bind f) ((Shown.say es).bind g) :=
  quiet_bind (quiet_say es) fun _ _ => h

theorem shown_lift {x : Rust α} {f : α → Printing Event1 β} {g : α → Shown β}
    (h : ∀ a, x = .ok a → Quiet (f a) (g a)) : Quiet ((Printing.lift x).bind f) ((Shown.lift x).bind g) :=
  quiet_bind (quiet_lift x) h

end

theorem cfaP_quiet (t : LegacyText) (cfa : CfaRule) : Quiet (t.cfaP cfa) (t.cfaT cfa) := by
  unfold LegacyText.cfaP LegacyText.cfaT
  cases cfa with
  | registerAndOffset r o => exact quiet_say _
  | expression e =>
    dsimp only
    cases dumpExpression e with
    | ok u => exact quiet_say _
    | error _ => exact quiet_lift _

theorem registerP_quiet (t : LegacyText) (a : ObjArch) (x : Reg × RegRule) : Quiet (t.registerP a x) (t.registerT a x) := by
  unfold LegacyText.registerP LegacyText.registerT
  cases h : formatRule x.2 with
  | ok u => exact quiet_say _
  | panic p => exact quiet_bind (quiet_say _) fun _ _ => quiet_lift _
  | diverge => exact quiet_bind (quiet_say _) fun _ _ => quiet_lift _

theorem registersP_quiet (t : LegacyText) (a : ObjArch) :
    ∀ l : List (Reg × RegRule), Quiet (t.registersP a l) (t.registersT a l)
  | [] => shown_pure ()
  | x :: l => shown_next (registerP_quiet t a x) fun _ _ => registersP_quiet t a l

theorem rowP_quiet (t : LegacyText) (a : ObjArch) (row : DwRow) : Quiet (t.rowP a row) (t.rowT a row) := by
  unfold LegacyText.rowP LegacyText.rowT
  exact shown_say (shown_next (cfaP_quiet t row.cfa) fun _ _ => registersP_quiet t a row.registers)

theorem legacyFpP_quiet (row : DwRow) : Quiet (legacyFpP row) (legacyFpT row) := by
  unfold legacyFpP legacyFpT
  cases row.register Reg.X86_64_RBP with
  | offset offset =>
    dsimp only
    cases i32TryFromI64 offset <;> exact shown_pure _
  | undefined => exact shown_pure _
  | _ => exact shown_lift fun _ _ => shown_say (shown_pure _)

theorem legacyRaP_quiet (row : DwRow) : Quiet (legacyRaP row) (legacyRaT row) := by
  unfold legacyRaP legacyRaT
  cases row.register Reg.X86_64_RA with
  | offset offset =>
    dsimp only
    cases i32TryFromI64 offset <;> exact shown_pure _
  | _ => exact shown_lift fun _ _ => shown_pure _

theorem legacyAddP_quiet (start : U32) (sfde : FuncDescBuilder) (base : BaseReg) (offsets : FrameRowOffsets) :
    Quiet (legacyAddP start sfde base offsets) (legacyAddT start sfde base offsets) := by
  unfold legacyAddP legacyAddT
  refine shown_say ?_
  cases sfde.row (FrameRowBuilder.new base start offsets) <;> exact shown_pure _

theorem legacyRestP_quiet (start : U32) (row : DwRow) (sfde : FuncDescBuilder) (base : BaseReg) (cfa : I32) :
    Quiet (legacyRestP start row sfde base cfa) (legacyRestT start row sfde base cfa) := by
  unfold legacyRestP legacyRestT
  refine shown_next (legacyFpP_quiet row) fun r _ => ?_
  cases r with
  | error n => exact shown_pure _
  | ok fp =>
    refine shown_next (legacyRaP_quiet row) fun r _ => ?_
    cases r with
    | error n => exact shown_pure _
    | ok ra => exact legacyAddP_quiet _ _ _ _

theorem legacyTryP_quiet (start : U32) (row : DwRow) (sfde : FuncDescBuilder) :
    Quiet (legacyTryP start row sfde) (legacyTryT start row sfde) := by
  unfold legacyTryP legacyTryT
  cases legacyCfaT row with
  | error n => exact shown_pure _
  | ok x =>
    obtain ⟨base, offset⟩ := x
    dsimp only
    cases i32TryFromI64 offset with
    | none => exact shown_pure _
    | some cfa => exact legacyRestP_quiet _ _ _ _ _

theorem legacyRowP_quiet (start : U32) (row : DwRow) (sfde : FuncDescBuilder) :
    Quiet (legacyRowP start row sfde) (legacyRowT start row sfde) := by
  unfold legacyRowP legacyRowT
  refine shown_next (legacyTryP_quiet start row sfde) fun r _ => ?_
  cases r with
  | ok sfde => exact shown_pure _
  | error n => exact shown_say (shown_pure _)

theorem legacyRowsP_quiet (dbg : Bool) (t : LegacyText) (a : ObjArch) (fde : DwFde) :
    ∀ (rows : List (Except GErr DwRow)) (sfde : FuncDescBuilder),
      Quiet (legacyRowsP dbg t a fde rows sfde) (legacyRowsT dbg t a fde rows sfde)
  | [], _ => shown_pure _
  | .error _ :: _, _ => shown_pure _
  | .ok row :: rows, sfde => by
    unfold legacyRowsP legacyRowsT
    refine shown_lift fun d _ => ?_
    cases u32TryFromU64 d with
    | none => exact shown_pure _
    | some start =>
      dsimp only
      split
      · refine shown_next (rowP_quiet t a row) fun _ _ => shown_next (legacyRowP_quiet start row sfde) fun r _ => ?_
        cases r with
        | error e => exact shown_pure _
        | ok sfde => exact legacyRowsP_quiet dbg t a fde rows sfde
      · exact shown_pure _

section
variable {α β : Type}

theorem shown_follow {x : Printing Event1 α} {y : Shown α} {a : α} {f : α → Printing Event1 β} {g : α → Shown β}
    {fail : Rust β} (hx : Follows x y (.ok a)) (hg : ∀ a, y.2 = .ok a → Follows (f a) (g a) fail)
    (ha : ∀ k n, f a k n = ([], fail)) : Follows (x.bind f) (y.bind g) fail := follows_bind hx hg ha

theorem shown_follow_say {es : List Event1} {f : Unit → Printing Event1 β} {g : Unit → Shown β} {fail : Rust β}
    (h : Follows (f ()) (g ()) fail) : Follows ((Printing.say es).bind f) ((Shown.say es).bind g) fail :=
  follows_say_bind h

theorem shown_follow_list {es : List Event1} {f : Bool → Printing Event1 β} {g : Unit → Shown β} {fail : Rust β}
    (h : Follows (f true) (g ()) fail) (hf : ∀ k n, f false k n = ([], fail)) :
    Follows ((Printing.list es).bind f) ((Shown.say es).bind g) fail := follows_list_bind h hf

theorem shown_follow_lift {x : Rust α} {f : α → Printing Event1 β} {g : α → Shown β} {fail : Rust β}
    (h : ∀ a, x = .ok a → Follows (f a) (g a) fail) :
    Follows ((Printing.lift x).bind f) ((Shown.lift x).bind g) fail := follows_lift_bind h

end

theorem legacyFdeP_follows (dbg : Bool) (t : LegacyText) (io : GErr) (a : ObjArch) (sframe : SFrameBuilder) (fde : DwFde) :
    Follows (legacyFdeP dbg t io a sframe fde) (legacyFdeT dbg t a sframe fde) (.ok (.error (.dump io))) := by
  unfold legacyFdeP legacyFdeT
  split
  · exact follows_pure _ _
  split
  · exact follows_pure _ _
  dsimp only
  cases fde.rows with
  | error e => exact follows_pure _ _
  | ok rows =>
    refine shown_follow_say (shown_follow_lift fun end_ _ => shown_follow_say (shown_follow_list ?_ fun _ _ => rfl))
    dsimp only
    cases (listInstructions true t.name t.error fde.instructions).2 with
    | error e => exact follows_pure _ _
    | ok u =>
      refine shown_follow_say ?_
      refine shown_follow (a := .error (.dump io)) ((legacyRowsP_quiet dbg t a fde rows _).follows _)
        (fun r _ => ?_) (fun _ _ => rfl)
      cases r with
      | error e => exact follows_pure _ _
      | ok sfde => exact shown_follow_lift fun _ _ => shown_follow_lift fun _ _ => shown_follow_say (follows_pure _ _)

theorem legacyEntriesP_follows (dbg : Bool) (t : LegacyText) (io : GErr) (a : ObjArch) (eh : EhFrame) (bases : Bases) :
    ∀ (entries : List (Except GErr Entry)) (cies : List (Nat × Except GErr Cie)) (sframe : SFrameBuilder),
      Follows (legacyEntriesP dbg t io a eh bases entries cies sframe) (legacyEntriesT dbg t a eh bases entries cies sframe)
        (.ok (.error (.dump io)))
  | [], _, _ => follows_pure _ _
  | .error _ :: _, _, _ => follows_pure _ _
  | .ok .cie :: entries, cies, sframe => legacyEntriesP_follows dbg t io a eh bases entries cies sframe
  | .ok (.fde offset parse) :: entries, cies, sframe => by
    unfold legacyEntriesP legacyEntriesT
    cases parse (lookupCie (Options.new .amd64 bases) eh cies offset).1 with
    | error e => exact follows_pure _ _
    | ok fde =>
      refine shown_follow (a := .error (.dump io)) (legacyFdeP_follows dbg t io a sframe fde) (fun r _ => ?_)
        (fun _ _ => rfl)
      cases r with
      | error e => exact follows_pure _ _
      | ok sframe => exact legacyEntriesP_follows dbg t io a eh bases entries _ sframe

theorem legacyConvertP_follows (dbg : Bool) (t : LegacyText) (io : GErr) (a : ObjArch) (eh : EhFrame) (bases : Bases) :
    Follows (legacyConvertP dbg t io a eh bases) (legacyConvertT dbg t a eh bases) (.ok (.error (.dump io))) := by
  unfold legacyConvertP legacyConvertT
  refine shown_follow (a := .error (.dump io)) (legacyEntriesP_follows dbg t io a eh bases _ _ _) (fun r _ => ?_)
    (fun _ _ => rfl)
  cases r with
  | error e => exact follows_pure _ _
  | ok sframe => exact shown_follow_lift fun _ _ => follows_pure _ _

end Verif
