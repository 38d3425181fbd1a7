import Verif.Model.Printing
/-!
# A run on streams that may fail is the beginning of the run on streams that work
-/

namespace Verif
namespace Spec

/-- A run that prints `es` and gives `r`, on streams of which `k` says what they take from number `n` on: it ends where something
is refused, with `fail` in a listing and a panic elsewhere. -/
def cutAt {ε α : Type} (k : Nat → Bool) (fail : Rust α) : List (ε × Bool) → Rust α → Nat → List (ε × Bool) × Rust α
  | [], r, _ => ([], r)
  | e :: es, r, n =>
    if k n then (e :: (cutAt k fail es r (n + 1)).1, (cutAt k fail es r (n + 1)).2)
    else ([], if e.2 then fail else .panic .explicit)

end Spec

open Spec

variable {ε α β : Type}

/-- `x` prints as `y` does, up to what is refused. -/
def Follows (x : Printing ε α) (y : List ε × Rust α) (fail : Rust α) : Prop :=
  ∃ es : List (ε × Bool), es.map Prod.fst = y.1 ∧ ∀ k n, x k n = cutAt k fail es y.2 n

/-- One computation after the other, with what is printed. -/
def thenT (x : List ε × Rust α) (f : α → List ε × Rust β) : List ε × Rust β :=
  match x.2 with
  | .ok a => (x.1 ++ (f a).1, (f a).2)
  | .panic p => (x.1, .panic p)
  | .diverge => (x.1, .diverge)

theorem traced_bind {α β : Type} (x : Traced α) (f : α → Traced β) : x.bind f = thenT x f := rfl

theorem shown_bind {α β : Type} (x : Shown α) (f : α → Shown β) : x.bind f = thenT x f := rfl

theorem follows_lift (x : Rust α) (fail : Rust α) : Follows (Printing.lift x : Printing ε α) ([], x) fail :=
  ⟨[], rfl, fun _ _ => rfl⟩

theorem follows_pure (a : α) (fail : Rust α) : Follows (Printing.pure a : Printing ε α) ([], .ok a) fail :=
  follows_lift _ _

theorem follows_lift_bind {x : Rust α} {f : α → Printing ε β} {g : α → List ε × Rust β} {fail : Rust β}
    (h : ∀ a, x = .ok a → Follows (f a) (g a) fail) :
    Follows ((Printing.lift x).bind f) (thenT ([], x) g) fail := by
  cases hx : x with
  | ok a =>
    obtain ⟨es, h1, h2⟩ := h a hx
    refine ⟨es, by simpa [thenT] using h1, fun k n => ?_⟩
    simp [Printing.bind, Printing.lift, thenT, h2]
  | panic p => exact ⟨[], rfl, fun _ _ => rfl⟩
  | diverge => exact ⟨[], rfl, fun _ _ => rfl⟩

theorem map_tag (l : List ε) (b : Bool) : (l.map (·, b)).map Prod.fst = l := by
  induction l <;> simp_all

theorem follows_say_bind {l : List ε} {f : Unit → Printing ε β} {g : Unit → List ε × Rust β} {fail : Rust β}
    (h : Follows (f ()) (g ()) fail) :
    Follows ((Printing.say l).bind f) (thenT (l, .ok ()) g) fail := by
  obtain ⟨es, h1, h2⟩ := h
  refine ⟨l.map (·, false) ++ es, by rw [List.map_append, map_tag, h1]; rfl, fun k n => ?_⟩
  show _ = cutAt k fail (l.map (·, false) ++ es) (g ()).2 n
  induction l generalizing n with
  | nil => simp [Printing.say, Printing.bind, Printing.pure, Printing.lift, h2]
  | cons e l ih =>
    simp only [List.map_cons, List.cons_append, cutAt]
    have ih := ih (n + 1)
    unfold Printing.bind at ih ⊢
    simp only [Printing.say]
    cases hk : k n with
    | false => simp
    | true =>
      simp only [if_true]
      rw [← ih]
      rcases hs : Printing.say l k (n + 1) with ⟨es', r⟩
      cases r <;> simp [Nat.add_assoc, Nat.add_comm 1]

theorem follows_list_bind {l : List ε} {f : Bool → Printing ε β} {y : List ε × Rust β} {fail : Rust β}
    (h : Follows (f true) y fail) (hf : ∀ k n, f false k n = ([], fail)) :
    Follows ((Printing.list l).bind f) (l ++ y.1, y.2) fail := by
  obtain ⟨es, h1, h2⟩ := h
  refine ⟨l.map (·, true) ++ es, by rw [List.map_append, map_tag, h1], fun k n => ?_⟩
  show _ = cutAt k fail (l.map (·, true) ++ es) y.2 n
  induction l generalizing n with
  | nil => simp [Printing.list, Printing.bind, Printing.pure, Printing.lift, h2]
  | cons e l ih =>
    simp only [List.map_cons, List.cons_append, cutAt]
    have ih := ih (n + 1)
    unfold Printing.bind at ih ⊢
    simp only [Printing.list]
    cases hk : k n with
    | false => simp [hf]
    | true =>
      simp only [if_true]
      rw [← ih]
      rcases hs : Printing.list l k (n + 1) with ⟨es', r⟩
      cases r <;> simp [Nat.add_assoc, Nat.add_comm 1]

theorem cutAt_append (k : Nat → Bool) (fail : Rust α) (r : Rust α) (es es' : List (ε × Bool)) (n : Nat) :
    cutAt k fail (es ++ es') r n =
      if ∀ i, i < es.length → k (n + i) = true then
        (es ++ (cutAt k fail es' r (n + es.length)).1, (cutAt k fail es' r (n + es.length)).2)
      else cutAt k fail es r n := by
  induction es generalizing n with
  | nil => simp
  | cons e es ih =>
    simp only [List.cons_append, cutAt]
    cases hk : k n with
    | false =>
      have : ¬ ∀ i, i < (e :: es).length → k (n + i) = true := fun h => by simpa [hk] using h 0 (by simp)
      rw [if_neg this]; simp
    | true =>
      have hiff : (∀ i, i < (e :: es).length → k (n + i) = true) ↔ ∀ i, i < es.length → k (n + 1 + i) = true := by
        constructor
        · intro h i hi
          have := h (i + 1) (by simpa using hi)
          rwa [show n + (i + 1) = n + 1 + i from by omega] at this
        · intro h i hi
          cases i with
          | zero => simpa using hk
          | succ i =>
            have := h i (by simpa using hi)
            rwa [show n + 1 + i = n + (i + 1) from by omega] at this
      simp only [if_true, ih, hiff]
      split
      · simp [Nat.add_assoc, Nat.add_comm 1]
      · simp

theorem cutAt_open {k : Nat → Bool} (fail : Rust α) (r : Rust α) (es : List (ε × Bool)) (n : Nat)
    (h : ∀ i, i < es.length → k (n + i) = true) : cutAt k fail es r n = (es, r) := by
  have := cutAt_append k fail r es [] n
  rw [List.append_nil, if_pos h] at this
  simpa [cutAt] using this

/-- Where something is refused, neither the result nor what is printed later matters. -/
theorem cutAt_refused {k : Nat → Bool} (es : List (ε × Bool)) (n : Nat)
    (h : ¬ ∀ i, i < es.length → k (n + i) = true) :
    ∃ pre e post, es = pre ++ e :: post ∧ (∀ i, i < pre.length → k (n + i) = true) ∧ k (n + pre.length) = false ∧
      ∀ {γ : Type} (failγ : Rust γ) (r : Rust γ), cutAt k failγ es r n =
        (pre, if e.2 then failγ else .panic .explicit) := by
  induction es generalizing n with
  | nil => exact absurd (fun i hi => by simp at hi) h
  | cons e es ih =>
    cases hk : k n with
    | false =>
      exact ⟨[], e, es, rfl, fun i hi => by simp at hi, by simpa using hk, fun failγ r => by simp [cutAt, hk]⟩
    | true =>
      have h' : ¬ ∀ i, i < es.length → k (n + 1 + i) = true := by
        intro hc
        refine h fun i hi => ?_
        cases i with
        | zero => simpa using hk
        | succ i =>
          have := hc i (by simpa using hi)
          rwa [show n + 1 + i = n + (i + 1) from by omega] at this
      obtain ⟨pre, e', post, h1, h2, h3, h4⟩ := ih (n + 1) h'
      refine ⟨e :: pre, e', post, by simp [h1], fun i hi => ?_, ?_, fun failγ r => ?_⟩
      · cases i with
        | zero => simpa using hk
        | succ i =>
          have := h2 i (by simpa using hi)
          rwa [show n + 1 + i = n + (i + 1) from by omega] at this
      · rw [show n + (e :: pre).length = n + 1 + pre.length from by simp; omega]; exact h3
      · simp [cutAt, hk, h4]

/-- A part whose failure is `a` ends the whole if `a` does. -/
theorem follows_bind {x : Printing ε α} {y : List ε × Rust α} {a : α} {f : α → Printing ε β}
    {g : α → List ε × Rust β} {fail : Rust β} (hx : Follows x y (.ok a))
    (hg : ∀ a, y.2 = .ok a → Follows (f a) (g a) fail) (ha : ∀ k n, f a k n = ([], fail)) :
    Follows (x.bind f) (thenT y g) fail := by
  obtain ⟨es, h1, h2⟩ := hx
  obtain ⟨ys, r⟩ := y
  simp only at h1 h2 hg
  have key : ∀ k n, ¬ (∀ i, i < es.length → k (n + i) = true) → ∀ (es' : List (ε × Bool)) (r' : Rust β),
      (x.bind f) k n = cutAt k fail (es ++ es') r' n := by
    intro k n hc es' r'
    obtain ⟨pre, e, post, -, -, -, h4⟩ := cutAt_refused es n hc
    rw [cutAt_append, if_neg hc, h4]
    unfold Printing.bind
    rw [h2, h4]
    cases e.2 <;> simp [ha]
  cases r with
  | ok b =>
    obtain ⟨es', g1, g2⟩ := hg b rfl
    refine ⟨es ++ es', by simp [thenT, h1, g1], fun k n => ?_⟩
    show _ = cutAt k fail (es ++ es') (g b).2 n
    by_cases hc : ∀ i, i < es.length → k (n + i) = true
    · rw [cutAt_append, if_pos hc]
      unfold Printing.bind
      rw [h2, cutAt_open _ _ _ _ hc]
      simp [g2]
    · exact key k n hc _ _
  | panic p =>
    refine ⟨es, h1, fun k n => ?_⟩
    show _ = cutAt k fail es (.panic p) n
    by_cases hc : ∀ i, i < es.length → k (n + i) = true
    · rw [cutAt_open _ _ _ _ hc]
      unfold Printing.bind
      rw [h2, cutAt_open _ _ _ _ hc]
    · simpa using key k n hc [] (.panic p)
  | diverge =>
    refine ⟨es, h1, fun k n => ?_⟩
    show _ = cutAt k fail es .diverge n
    by_cases hc : ∀ i, i < es.length → k (n + i) = true
    · rw [cutAt_open _ _ _ _ hc]
      unfold Printing.bind
      rw [h2, cutAt_open _ _ _ _ hc]
    · simpa using key k n hc [] .diverge

/-! ### `dwarf2sframe2` -/

section
variable {α β : Type}

theorem traced_say {ls : List String} {f : Unit → Printing Event β} {g : Unit → Traced β} {fail : Rust β}
    (h : Follows (f ()) (g ()) fail) :
    Follows ((Printing.say (ls.map Event.out)).bind f) ((Traced.say ls).bind g) fail := follows_say_bind h

theorem traced_list {ls : List String} {f : Bool → Printing Event β} {g : Unit → Traced β} {fail : Rust β}
    (h : Follows (f true) (g ()) fail) (hf : ∀ k n, f false k n = ([], fail)) :
    Follows ((Printing.list (ls.map Event.out)).bind f) ((Traced.say ls).bind g) fail := follows_list_bind h hf

theorem traced_complain {ws : List Warning} {f : Unit → Printing Event β} {g : Unit → Traced β} {fail : Rust β}
    (h : Follows (f ()) (g ()) fail) :
    Follows ((Printing.say (ws.map Event.err)).bind f) ((Traced.complain ws).bind g) fail := follows_say_bind h

theorem traced_lift {x : Rust α} {f : α → Printing Event β} {g : α → Traced β} {fail : Rust β}
    (h : ∀ a, x = .ok a → Follows (f a) (g a) fail) :
    Follows ((Printing.lift x).bind f) ((Traced.lift x).bind g) fail := follows_lift_bind h

theorem traced_pure {a : α} {f : α → Printing Event β} {g : α → Traced β} {fail : Rust β}
    (h : Follows (f a) (g a) fail) :
    Follows ((Printing.pure a).bind f) ((Traced.pure a).bind g) fail :=
  follows_lift_bind fun b hb => by cases hb; exact h

theorem traced_next {x : Printing Event α} {y : Traced α} {a : α} {f : α → Printing Event β} {g : α → Traced β}
    {fail : Rust β} (hx : Follows x y (.ok a)) (hg : ∀ a, y.2 = .ok a → Follows (f a) (g a) fail)
    (ha : ∀ k n, f a k n = ([], fail)) : Follows (x.bind f) (y.bind g) fail := follows_bind hx hg ha

end

theorem convertRowsP_follows (dbg : Bool) (g : GimliText) (opts : Options) (fde : DwFde) (io : ConvError) :
    ∀ (rows : List (Except GErr DwRow)) (sfde : FuncDescBuilder),
      Follows (convertRowsP dbg g opts fde rows sfde) (convertRowsT dbg g opts fde rows sfde) (.ok (.error io))
  | [], sfde => follows_pure _ _
  | .error e :: _, _ => follows_pure _ _
  | .ok row :: rows, sfde => by
    unfold convertRowsP convertRowsT
    refine traced_say ?_
    split
    · exact convertRowsP_follows dbg g opts fde io rows sfde
    refine traced_lift fun r _ => ?_
    cases r with
    | error e => exact follows_pure _ _
    | ok start =>
      refine traced_lift fun r _ => ?_
      refine traced_next (a := .error io) ?_ (fun r _ => ?_) (fun _ _ => rfl)
      · cases r with
        | ok fre => exact follows_pure _ _
        | error e =>
          cases e with
          | fatal e => exact follows_pure _ _
          | warning w => exact traced_complain (follows_pure _ _)
      · cases r with
        | error e => exact follows_pure _ _
        | ok fre =>
          dsimp only
          cases sfde.row fre with
          | error _ => exact follows_lift _ _
          | ok sfde => exact convertRowsP_follows dbg g opts fde io rows sfde

theorem dumpFdeP_follows (dbg : Bool) (g : GimliText) (io : GErr) (arch : Architecture) (fde : DwFde) :
    Follows (dumpFdeP dbg g io arch fde) (dumpFdeT dbg g arch fde) (.ok (.error (.invalidDwarfFde io))) := by
  unfold dumpFdeP dumpFdeT
  refine traced_say (traced_lift fun end_ _ => ?_)
  refine traced_say (ls := [fdeRange fde end_]) ?_
  refine traced_list ?_ (fun _ _ => rfl)
  dsimp only
  cases (listInstructions false (g.register arch) g.error fde.instructions).2 with
  | error e => exact follows_pure _ _
  | ok u => exact traced_say (ls := ["", "Rows:"]) (follows_pure _ _)

theorem convertFdeP_follows (dbg : Bool) (g : GimliText) (io : GErr) (opts : Options) (sframe : SFrameBuilder)
    (fde : DwFde) :
    Follows (convertFdeP dbg g io opts sframe fde) (convertFdeT dbg g opts sframe fde)
      (.ok (.error (.invalidDwarfFde io))) := by
  unfold convertFdeP convertFdeT
  refine traced_next (a := .error (.invalidDwarfFde io)) ?_ (fun r _ => ?_) (fun _ _ => rfl)
  · split
    · exact dumpFdeP_follows dbg g io opts.arch fde
    · exact follows_pure _ _
  cases r with
  | error e => exact follows_pure _ _
  | ok u =>
    dsimp only
    split
    · exact follows_pure _ _
    split
    · exact follows_pure _ _
    cases fde.rows with
    | error e => exact follows_pure _ _
    | ok rows =>
      refine traced_next (a := .error (.invalidDwarfFde io)) (convertRowsP_follows dbg g opts fde _ rows _)
        (fun r _ => ?_) (fun _ _ => rfl)
      cases r with
      | error e => exact follows_pure _ _
      | ok sfde => exact traced_lift fun _ _ => traced_lift fun _ _ => traced_say (follows_pure _ _)

theorem convertEntriesP_follows (dbg : Bool) (g : GimliText) (io : GErr) (opts : Options) (eh : EhFrame) :
    ∀ (entries : List (Except GErr Entry)) (sframe : SFrameBuilder) (cies : List (Nat × Except GErr Cie)),
      Follows (convertEntriesP dbg g io opts eh entries sframe cies) (convertEntriesT dbg g opts eh entries sframe cies)
        (.ok (.error (.invalidDwarfFde io)))
  | [], _, _ => follows_pure _ _
  | .error _ :: _, _, _ => follows_pure _ _
  | .ok .cie :: entries, sframe, cies => convertEntriesP_follows dbg g io opts eh entries sframe cies
  | .ok (.fde offset parse) :: entries, sframe, cies => by
    unfold convertEntriesP convertEntriesT
    cases parse (lookupCie opts eh cies offset).1 with
    | error e => exact follows_pure _ _
    | ok fde =>
      refine traced_next (a := .error (.invalidDwarfFde io)) (convertFdeP_follows dbg g io opts sframe fde)
        (fun r _ => ?_) (fun _ _ => rfl)
      cases r with
      | error e => exact follows_pure _ _
      | ok sframe => exact convertEntriesP_follows dbg g io opts eh entries sframe _

theorem dwarf2sframeP_follows (dbg : Bool) (g : GimliText) (io : GErr) (eh : EhFrame) (opts : Options) :
    Follows (dwarf2sframeP dbg g io eh opts) (dwarf2sframeT dbg g eh opts) (.ok (.error (.invalidDwarfFde io))) := by
  unfold dwarf2sframeP dwarf2sframeT
  refine traced_next (a := .error (.invalidDwarfFde io)) (convertEntriesP_follows dbg g io opts eh _ _ _)
    (fun r _ => ?_) (fun _ _ => rfl)
  cases r with
  | error e => exact follows_pure _ _
  | ok sframe => exact traced_lift fun _ _ => follows_pure _ _

end Verif
