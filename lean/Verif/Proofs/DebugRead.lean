import Verif.Spec.DebugText
import Verif.Proofs.DebugText
/-!
# The reader of `Spec/DebugText.lean` takes apart what the builders of `core::fmt` put together
-/

namespace Verif
open Spec.DebugText

/-! ### Trimming -/

/-- A text that neither begins nor ends with a space. -/
def Tight (x : List Char) : Prop := x.head? ≠ some ' ' ∧ x.getLast? ≠ some ' '

theorem dropWhile_replicate (n : Nat) (x : List Char) :
    (List.replicate n ' ' ++ x).dropWhile (· == ' ') = x.dropWhile (· == ' ') := by
  induction n with
  | zero => rfl
  | succ n ih => rw [List.replicate_succ, List.cons_append, List.dropWhile_cons]; simp [ih]

theorem dropWhile_head {x : List Char} (h : x.head? ≠ some ' ') : x.dropWhile (· == ' ') = x := by
  cases x with
  | nil => rfl
  | cons c x =>
    rw [List.dropWhile_cons, if_neg]
    intro hc
    exact h (by simpa using hc)

theorem trim_spaces {x : List Char} (hx : Tight x) (hne : x ≠ []) (a b : Nat) :
    trim (List.replicate a ' ' ++ x ++ List.replicate b ' ') = x := by
  unfold trim
  have h1 : (x ++ List.replicate b ' ').head? ≠ some ' ' := by
    cases x with
    | nil => exact absurd rfl hne
    | cons c x => simpa using hx.1
  have h2 : x.reverse.head? ≠ some ' ' := by rw [List.head?_reverse]; exact hx.2
  rw [List.append_assoc, dropWhile_replicate, dropWhile_head h1, List.reverse_append, List.reverse_replicate,
    dropWhile_replicate, dropWhile_head h2, List.reverse_reverse]

theorem all_of_dropWhile : ∀ {l : List Char}, l.dropWhile (· == ' ') = [] → ∀ c ∈ l, c = ' '
  | [], _, _, h => by cases h
  | x :: l, h, c, hc => by
    rw [List.dropWhile_cons] at h
    split at h
    · next hx =>
      rcases List.mem_cons.1 hc with rfl | hc
      · simpa using hx
      · exact all_of_dropWhile h c hc
    · cases h

/-- Something that is not a space is left. -/
theorem trim_ne_nil {s : List Char} {c : Char} (hc : c ∈ s) (hs : c ≠ ' ') : trim s ≠ [] := by
  intro h
  have h1 := all_of_dropWhile (List.reverse_eq_nil_iff.1 h)
  have h2 : ∀ x ∈ s.dropWhile (· == ' '), x = ' ' := fun x hx => h1 x (List.mem_reverse.2 hx)
  have h3 : ∀ {l : List Char}, c ∈ l → c ∈ l.dropWhile (· == ' ') := by
    intro l
    induction l with
    | nil => exact id
    | cons x l ih =>
      intro hx
      rw [List.dropWhile_cons]
      split
      · next hsp =>
        rcases List.mem_cons.1 hx with rfl | hx
        · exact absurd (by simpa using hsp) hs
        · exact ih hx
      · exact hx
  exact hs (h2 c (h3 hc))

theorem trim_tight {x : List Char} (hx : Tight x) : trim x = x := by
  by_cases hne : x = []
  · subst hne; rfl
  · simpa using trim_spaces hx hne 0 0

/-! ### Splitting -/

/-- A text without a comma outside its brackets, all of which are closed. -/
def Level (u : List Char) : Prop := ∀ d acc s, split d acc (u ++ s) = split d (u.reverse ++ acc) s

/-- The same inside a bracket, where commas do not count. -/
def Inner (u : List Char) : Prop := ∀ d acc s, split (d + 1) acc (u ++ s) = split (d + 1) (u.reverse ++ acc) s

theorem Level.inner {u : List Char} (h : Level u) : Inner u := fun d => h (d + 1)

theorem Level.append {u v : List Char} (hu : Level u) (hv : Level v) : Level (u ++ v) := by
  intro d acc s
  rw [List.append_assoc, hu, hv, List.reverse_append, List.append_assoc]

theorem Inner.append {u v : List Char} (hu : Inner u) (hv : Inner v) : Inner (u ++ v) := by
  intro d acc s
  rw [List.append_assoc, hu, hv, List.reverse_append, List.append_assoc]

theorem Level.nil : Level [] := fun _ _ _ => rfl

/-- A character that is neither a bracket nor a comma. -/
theorem level_char {c : Char} (hc : c ≠ ',') (hd : ∀ d, depth d c = d) : Level [c] := by
  intro d acc s
  simp only [List.cons_append, List.nil_append, List.reverse_cons, List.reverse_nil]
  rw [split, if_neg (fun h => hc h.2), hd]

theorem level_chars : ∀ {u : List Char}, (∀ c ∈ u, c ≠ ',' ∧ ∀ d, depth d c = d) → Level u
  | [], _ => Level.nil
  | c :: u, h => Level.append (u := [c]) (level_char (h c (by simp)).1 (h c (by simp)).2)
      (level_chars fun x hx => h x (by simp [hx]))

theorem level_name {u : List Char} (h : ∀ c ∈ u, ¬ Structural c) : Level u :=
  level_chars fun c hc => by
    have := h c hc
    simp only [Structural, not_or] at this
    refine ⟨this.1, fun d => ?_⟩
    unfold depth
    rw [if_neg (by simp [this]), if_neg (by simp [this])]

theorem level_space : Level [' '] := level_char (by decide) fun d => by simp [depth]

theorem level_colon : Level ": ".toList := level_chars fun c hc => by
  have : c = ':' ∨ c = ' ' := by simpa using hc
  rcases this with rfl | rfl <;> exact ⟨by decide, fun d => by simp [depth]⟩

/-- Something in brackets. -/
theorem level_bracket {l r : Char} {u : List Char} (hl : ∀ d, depth d l = d + 1) (hr : ∀ d, depth (d + 1) r = d)
    (hlc : l ≠ ',') (hrc : r ≠ ',') (h : Inner u) : Level (l :: u ++ [r]) := by
  intro d acc s
  rw [List.append_assoc, List.cons_append, split, if_neg (fun h => hlc h.2), hl, h, List.singleton_append, split,
    if_neg (fun h => hrc h.2), hr]
  simp

theorem inner_comma : Inner ", ".toList := by
  intro d acc s
  show split (d + 1) acc (',' :: ' ' :: s) = _
  rw [split, if_neg (by simp), split, if_neg (by simp)]
  simp [depth]

theorem inner_spaced {u : List Char} (h : Inner u) : Inner (' ' :: u ++ [' ']) :=
  (level_space.inner.append h).append level_space.inner

namespace DbgVal

theorem labelText_level {k : DbgShape} {l : String} (h : ∀ c ∈ l.toList, ¬ Structural c) : Level (labelText k l) := by
  cases k <;> first | exact Level.nil | exact (level_name h).append level_colon

mutual
theorem line_level : ∀ (v : DbgVal), v.Plain → Level v.line
  | .mk k name ps, h => by
    rw [DbgVal.Plain] at h
    obtain ⟨h1, h2, h3, h4, _, h6⟩ := h
    rw [line]
    have hn := level_name h1
    have hp := lineParts_inner ps k true h6
    cases k with
    | word => rw [h2 rfl]; simpa [opening, closing, lineParts] using hn
    | record =>
      cases ps with
      | nil => exact absurd rfl (h3 rfl)
      | cons l v r =>
        have := (hn.append level_space).append (level_bracket (l := '{') (r := '}') (fun d => by simp [depth])
          (fun d => by simp [depth]) (by decide) (by decide) (inner_spaced hp))
        simpa [opening, closing] using this
    | tuple =>
      cases ps with
      | nil => exact absurd rfl (h4 rfl)
      | cons l v r =>
        have := hn.append (level_bracket (l := '(') (r := ')') (fun d => by simp [depth])
          (fun d => by simp [depth]) (by decide) (by decide) hp)
        simpa [opening, closing] using this
    | list =>
      have := hn.append (level_bracket (l := '[') (r := ']') (fun d => by simp [depth])
          (fun d => by simp [depth]) (by decide) (by decide) hp)
      simpa [opening, closing] using this
theorem lineParts_inner : ∀ (p : DbgParts) (k : DbgShape) (first : Bool), p.Plain k → Inner (lineParts k first p)
  | .nil, _, _, _ => by rw [lineParts]; exact Level.nil.inner
  | .cons l v rest, k, first, h => by
    rw [DbgParts.Plain] at h
    rw [lineParts]
    have h0 : Inner (if first then [] else ", ".toList) := by
      cases first
      · exact inner_comma
      · exact Level.nil.inner
    exact ((h0.append (labelText_level h.2.2.2.2).inner).append (line_level v h.2.2.1).inner).append
      (lineParts_inner rest k false h.2.2.2.1)
end

/-! ### The ends of a text -/

theorem line_tight (v : DbgVal) (h : v.Plain) : Tight v.line ∧ v.line ≠ [] := by
  obtain ⟨k, name, ps⟩ := v
  rw [DbgVal.Plain] at h
  obtain ⟨h1, h2, h3, h4, h5, _⟩ := h
  have hsp : ' ' ∉ name.toList := fun hc => h1 ' ' hc (by simp [Structural])
  have hne : k ≠ .list → name.toList ≠ [] := fun hk hn => hk (h5.2 (by
    rw [← String.toList_inj]; simpa using hn))
  have hhead : ∀ r : List Char, name.toList ≠ [] → (name.toList ++ r).head? ≠ some ' ' := by
    intro r hn
    cases hl : name.toList with
    | nil => exact absurd hl hn
    | cons c l =>
      rw [hl] at hsp
      simp only [List.mem_cons, not_or] at hsp
      simpa using fun h => hsp.1 h.symm
  rw [line]
  cases k with
  | word =>
    rw [h2 rfl]
    simp only [opening, closing, lineParts, List.append_nil]
    refine ⟨⟨by simpa using hhead [] (hne (by simp)), fun hl => ?_⟩, hne (by simp)⟩
    exact hsp (List.mem_of_getLast? hl)
  | record =>
    cases ps with
    | nil => exact absurd rfl (h3 rfl)
    | cons l v r =>
      refine ⟨⟨?_, ?_⟩, ?_⟩
      · rw [List.append_assoc, List.append_assoc]; exact hhead _ (hne (by simp))
      · simp [closing]
      · simp [closing]
  | tuple =>
    cases ps with
    | nil => exact absurd rfl (h4 rfl)
    | cons l v r =>
      refine ⟨⟨?_, ?_⟩, ?_⟩
      · rw [List.append_assoc, List.append_assoc]; exact hhead _ (hne (by simp))
      · simp [closing]
      · simp [closing]
  | list =>
    rw [h5.1 rfl]
    refine ⟨⟨?_, ?_⟩, ?_⟩
    · simp [opening]
    · simp [closing]
    · simp [closing]

/-! ### The pieces -/

/-- The text of each part with its label. -/
def texts (k : DbgShape) : DbgParts → List (List Char)
  | .nil => []
  | .cons l v r => (labelText k l ++ v.line) :: texts k r

theorem part_tight {k : DbgShape} {l : String} {v : DbgVal} (hl : ∀ c ∈ l.toList, ¬ Structural c) (hv : v.Plain) :
    Tight (labelText k l ++ v.line) ∧ labelText k l ++ v.line ≠ [] := by
  obtain ⟨⟨h1, h2⟩, h3⟩ := line_tight v hv
  refine ⟨⟨?_, ?_⟩, by simp [h3]⟩
  · cases k <;> first
      | exact h1
      | skip
    simp only [labelText, List.append_assoc]
    cases hc : l.toList with
    | nil => simp
    | cons c t =>
      have := hl c (by rw [hc]; simp)
      simp only [Structural, not_or] at this
      simp [this]
  · rw [List.getLast?_append]
    cases hx : v.line.getLast? with
    | none => exact absurd (List.getLast?_eq_none_iff.1 hx) h3
    | some c => rw [hx] at h2; simpa using h2

/-- The pieces behind a first one `x`, with spaces at the ends. -/
theorem split_rest (k : DbgShape) (b : Nat) : ∀ (ps : DbgParts) (a : Nat) (x : List Char), ps.Plain k → Tight x → x ≠ [] →
    (split 0 (List.replicate a ' ' ++ x).reverse (lineParts k false ps ++ List.replicate b ' ')).map trim =
      x :: texts k ps
  | .nil, a, x, _, hx, hne => by
    have hb : Level (List.replicate b ' ') := level_chars fun c hc => by
      rw [(List.mem_replicate.1 hc).2]; exact ⟨by decide, fun d => by simp [depth]⟩
    have := hb 0 (List.replicate a ' ' ++ x).reverse []
    rw [List.append_nil] at this
    rw [lineParts, List.nil_append, this, split, ← List.reverse_append, List.reverse_reverse, List.map_singleton,
      trim_spaces hx hne, texts]
  | .cons l v r, a, x, h, hx, hne => by
    rw [DbgParts.Plain] at h
    obtain ⟨_, _, h3, h4, h5⟩ := h
    obtain ⟨ht, htn⟩ := part_tight (k := k) h5 h3
    have ih := split_rest k b r 1 _ h4 ht htn
    have hlev := (level_space.append ((labelText_level (k := k) h5).append (line_level v h3)))
    have h0 : lineParts k false (.cons l v r) ++ List.replicate b ' ' =
        ',' :: ([' '] ++ (labelText k l ++ v.line) ++ (lineParts k false r ++ List.replicate b ' ')) := by
      rw [lineParts]; simp
    rw [h0, split, if_pos ⟨rfl, rfl⟩, hlev, List.append_nil, List.map_cons, List.reverse_reverse, texts]
    have := trim_spaces hx hne a 0
    simp only [List.replicate_zero, List.append_nil] at this
    rw [this]
    exact congrArg _ ih

theorem items_parts {k : DbgShape} {ps : DbgParts} (hp : ps.Plain k) (b : Nat) :
    items (List.replicate b ' ' ++ lineParts k true ps ++ List.replicate b ' ') = texts k ps := by
  cases ps with
  | nil =>
    have : trim (List.replicate b ' ' ++ lineParts k true .nil ++ List.replicate b ' ') = [] := by
      unfold trim
      rw [lineParts, List.append_nil, dropWhile_replicate]
      have := dropWhile_replicate b []
      simp only [List.append_nil] at this
      rw [this]; rfl
    rw [items, if_pos this]; rfl
  | cons l v r =>
    have hp' := hp
    rw [DbgParts.Plain] at hp
    obtain ⟨_, _, h3, h4, h5⟩ := hp
    obtain ⟨ht, htn⟩ := part_tight (k := k) h5 h3
    have hsp : Level (List.replicate b ' ') := level_chars fun c hc => by
      rw [(List.mem_replicate.1 hc).2]; exact ⟨by decide, fun d => by simp [depth]⟩
    have hlev := hsp.append ((labelText_level (k := k) h5).append (line_level v h3))
    have h0 : List.replicate b ' ' ++ lineParts k true (.cons l v r) ++ List.replicate b ' ' =
        (List.replicate b ' ' ++ (labelText k l ++ v.line)) ++ (lineParts k false r ++ List.replicate b ' ') := by
      rw [lineParts]; simp
    have hs := split_rest k b r b _ h4 ht htn
    rw [h0, items, if_neg, hlev, List.append_nil, hs, texts]
    cases hl : labelText k l ++ v.line with
    | nil => exact absurd hl htn
    | cons c t =>
      rw [hl] at ht
      exact trim_ne_nil (c := c) (by simp) (by simpa using ht.1)

theorem inside_mk {l r : Char} {n u : List Char} (h : l ∉ n) :
    inside l r (n ++ l :: (u ++ [r])) = some (trim n, u) := by
  have hc : ∀ c ∈ n, (c != l) = true := fun c hc => bne_iff_ne.2 fun he => h (he ▸ hc)
  have h1 : (n ++ l :: (u ++ [r])).dropWhile (· != l) = l :: (u ++ [r]) := by
    rw [List.dropWhile_append_of_pos hc, List.dropWhile_cons]; simp
  have h2 : (n ++ l :: (u ++ [r])).takeWhile (· != l) = n := by
    rw [List.takeWhile_append_of_pos hc, List.takeWhile_cons]; simp
  unfold inside
  rw [h1, h2]
  simp

/-- The labels and texts of the parts. -/
def labelled : DbgParts → List (List Char × List Char)
  | .nil => []
  | .cons l v r => (l.toList, v.line) :: labelled r

theorem texts_record : ∀ {ps : DbgParts}, ps.Plain .record →
    (texts .record ps).map (fun p => (p.takeWhile (· != ':'), trim ((p.dropWhile (· != ':')).drop 1))) = labelled ps
  | .nil, _ => rfl
  | .cons l v r, h => by
    rw [DbgParts.Plain] at h
    have hc : ∀ c ∈ l.toList, (c != ':') = true := fun c hc => bne_iff_ne.2 fun he => h.1 (he ▸ hc)
    obtain ⟨ht, hn⟩ := line_tight v h.2.2.1
    rw [texts, List.map_cons, labelled, texts_record h.2.2.2.1]
    have e : labelText .record l ++ v.line = l.toList ++ ':' :: ' ' :: v.line := by simp [labelText]
    rw [e, List.takeWhile_append_of_pos hc, List.dropWhile_append_of_pos hc, List.takeWhile_cons, List.dropWhile_cons]
    have := trim_spaces ht hn 1 0
    simp only [List.replicate_zero, List.append_nil] at this
    simpa using this

theorem texts_ofList (k : DbgShape) (hk : k ≠ .record) : ∀ vs, texts k (DbgParts.ofList vs) = vs.map line
  | [] => rfl
  | v :: vs => by
    rw [DbgParts.ofList, texts, texts_ofList k hk vs]
    cases k <;> first | rfl | exact absurd rfl hk

/-! ### The three readers -/

theorem record_line {n : String} {ps : DbgParts} (h : (DbgVal.mk .record n ps).Plain) :
    record n (DbgVal.mk .record n ps).line = some (labelled ps) := by
  rw [DbgVal.Plain] at h
  obtain ⟨h1, _, h3, _, h5, h6⟩ := h
  cases ps with
  | nil => exact absurd rfl (h3 rfl)
  | cons l v r =>
    have hn : n.toList ≠ [] := fun hn => by
      have := h5.2 (by rw [← String.toList_inj]; simpa using hn)
      cases this
    have hbr : '{' ∉ n.toList ++ [' '] := by
      simp only [List.mem_append, List.mem_singleton, not_or]
      exact ⟨fun hc => h1 _ hc (by simp [Structural]), by decide⟩
    have ht : Tight n.toList := by
      have hsp : ' ' ∉ n.toList := fun hc => h1 ' ' hc (by simp [Structural])
      exact ⟨fun hh => hsp (List.mem_of_mem_head? hh), fun hh => hsp (List.mem_of_getLast? hh)⟩
    have hbody := items_parts h6 1
    have e : (DbgVal.mk .record n (.cons l v r)).line = (n.toList ++ [' ']) ++ '{' ::
        (([' '] ++ lineParts .record true (.cons l v r) ++ [' ']) ++ ['}']) := by
      rw [line]; simp [opening, closing]
    have htr := trim_spaces ht hn 0 1
    simp only [List.replicate_zero, List.nil_append, List.replicate_succ] at htr
    rw [record, e, inside_mk hbr, Option.bind_some]
    simp only [htr, if_true]
    exact congrArg some ((congrArg _ hbody).trans (texts_record h6))

theorem wrapped_line {n : String} {v : DbgVal} (h : (DbgVal.one n v).Plain) :
    wrapped n (DbgVal.one n v).line = some v.line := by
  unfold one at h ⊢
  rw [DbgVal.Plain] at h
  have hbr : '(' ∉ n.toList := fun hc => h.1 _ hc (by simp [Structural])
  have ht : Tight n.toList := by
    have hsp : ' ' ∉ n.toList := fun hc => h.1 ' ' hc (by simp [Structural])
    exact ⟨fun hh => hsp (List.mem_of_mem_head? hh), fun hh => hsp (List.mem_of_getLast? hh)⟩
  have e : (DbgVal.mk .tuple n (.cons "" v .nil)).line = n.toList ++ '(' :: (v.line ++ [')']) := by
    rw [line]; simp [opening, closing, lineParts, labelText]
  rw [wrapped, e, inside_mk hbr, Option.bind_some]
  simp only [trim_tight ht, if_true]

theorem list_line {vs : List DbgVal} (hs : (DbgParts.ofList vs).Plain .list) :
    list (DbgVal.seq vs).line = some (vs.map line) := by
  have hb := items_parts hs 0
  simp only [List.replicate_zero, List.nil_append, List.append_nil] at hb
  have e : (DbgVal.seq vs).line = [] ++ '[' :: (lineParts .list true (DbgParts.ofList vs) ++ [']']) := by
    unfold seq; rw [line]; simp [opening, closing]
  rw [list, e, inside_mk (by simp), Option.bind_some]
  simp only [show trim [] = [] from rfl, if_true, hb, texts_ofList .list (by simp)]

theorem word_line (s : String) : (DbgVal.word s).line = s.toList := by
  unfold word; rw [line]; simp [opening, closing, lineParts]

/-! ### One line and many -/

theorem dense_append (a b : List Char) : dense (a ++ b) = dense a ++ dense b := by simp [dense]

theorem dense_pad : ∀ (nl : Bool) (s : List Char), dense (padAdapter nl s) = dense s
  | _, [] => by rw [padAdapter]
  | nl, c :: s => by
    rw [padAdapter, dense_append, show c :: padAdapter (c == '\n') s = [c] ++ padAdapter (c == '\n') s from rfl,
      dense_append, dense_pad, show c :: s = [c] ++ s from rfl, dense_append]
    cases nl <;> rfl

theorem dense_name {n : List Char} (h : ∀ c ∈ n, ¬ Structural c) : dense n = n := by
  unfold dense
  rw [List.filter_eq_self]
  intro c hc
  have := h c hc
  simp only [Structural, not_or] at this
  simp [this]

theorem tidy_cons {c : Char} (h : c ≠ ',') (s : List Char) : closeUp (c :: s) = c :: closeUp s := by
  cases s with
  | nil => rfl
  | cons d s => rw [closeUp, if_neg (fun hh => h hh.1)]

theorem tidy_append : ∀ {n : List Char}, ',' ∉ n → ∀ s, closeUp (n ++ s) = n ++ closeUp s
  | [], _, _ => rfl
  | c :: n, h, s => by
    simp only [List.mem_cons, not_or] at h
    rw [List.cons_append, tidy_cons (Ne.symm h.1), tidy_append h.2, List.cons_append]

/-- A closing bracket. -/
def Closes (c : Char) : Prop := c = ')' ∨ c = ']' ∨ c = '}'

theorem tidy_comma_close {c : Char} (h : Closes c) (s : List Char) : closeUp (',' :: c :: s) = closeUp (c :: s) := by
  rw [closeUp, if_pos ⟨rfl, h⟩]

theorem tidy_comma {s : List Char} (h : ∀ c, s.head? = some c → ¬ Closes c) : closeUp (',' :: s) = ',' :: closeUp s := by
  cases s with
  | nil => rfl
  | cons c s => rw [closeUp, if_neg (fun hh => h c rfl hh.2)]

theorem label_dense {k : DbgShape} {l : String} (h : ∀ c ∈ l.toList, ¬ Structural c) :
    ',' ∉ dense (labelText k l) ∧ ∀ c, (dense (labelText k l)).head? = some c → ¬ Closes c := by
  have hall : ∀ c ∈ dense (labelText k l), c ≠ ',' ∧ ¬ Closes c := by
    intro c hc
    have hc := (List.mem_filter.1 hc).1
    cases k <;> simp only [labelText, List.mem_append, List.not_mem_nil] at hc
    rcases hc with hc | hc
    · have := h c hc
      simp only [Structural, not_or] at this
      simp [this, Closes]
    · have : c = ':' ∨ c = ' ' := by simpa using hc
      rcases this with rfl | rfl <;> exact ⟨by decide, by simp [Closes]⟩
  exact ⟨fun hc => (hall _ hc).1 rfl, fun c hc => (hall c (List.mem_of_mem_head? hc)).2⟩

theorem lines_head {v : DbgVal} (h : v.Plain) (s : List Char) :
    ∃ c t, dense v.lines ++ s = c :: t ∧ ¬ Closes c := by
  obtain ⟨k, name, ps⟩ := v
  rw [DbgVal.Plain] at h
  rw [lines]
  simp only [dense_append, List.append_assoc]
  cases hn : name.toList with
  | nil =>
    have := h.2.2.2.2.1.2 (by rw [← String.toList_inj]; simpa using hn)
    subst this
    refine ⟨'[', ?_, ?_, by simp [Closes]⟩
    · exact (dense (openingLines .list ps)).drop 1 ++ (dense (padAdapter true (linesParts .list ps)) ++
        (dense (closingLines .list ps) ++ s))
    · cases ps <;> rfl
  | cons c t =>
    have h1 := h.1
    rw [hn] at h1
    rw [dense_name h1]
    refine ⟨c, _, rfl, ?_⟩
    have := h1 c (by simp)
    simp only [Structural, not_or] at this
    simp [Closes, this]

theorem linesParts_head {k : DbgShape} {l : String} {v : DbgVal} {r : DbgParts} (h : (DbgParts.cons l v r).Plain k)
    (s : List Char) : ∀ c, (dense (linesParts k (.cons l v r)) ++ s).head? = some c → ¬ Closes c := by
  rw [DbgParts.Plain] at h
  intro c hc
  rw [linesParts] at hc
  simp only [dense_append, List.append_assoc] at hc
  cases hl : dense (labelText k l) with
  | nil =>
    rw [hl, List.nil_append] at hc
    obtain ⟨d, t, he, hd⟩ := lines_head h.2.2.1 (dense ",\n".toList ++ (dense (linesParts k r) ++ s))
    rw [he] at hc
    have : d = c := by simpa using hc
    exact this ▸ hd
  | cons d t =>
    rw [hl] at hc
    have : d = c := by simpa using hc
    exact this ▸ (label_dense h.2.2.2.2).2 d (by rw [hl]; rfl)

theorem lineParts_false {k : DbgShape} {l : String} {v : DbgVal} {r : DbgParts} :
    dense (lineParts k false (.cons l v r)) = ',' :: dense (lineParts k true (.cons l v r)) := by
  rw [lineParts, lineParts]
  simp [dense]

mutual
theorem tidy_lines : ∀ (v : DbgVal), v.Plain → ∀ s, closeUp (dense v.lines ++ s) = dense v.line ++ closeUp s
  | .mk k name ps, h, s => by
    rw [DbgVal.Plain] at h
    obtain ⟨h1, h2, h3, h4, _, h6⟩ := h
    have hc : ',' ∉ name.toList := fun hc => h1 _ hc (by simp [Structural])
    have hp := @tidy_linesParts ps k h6
    rw [lines, line]
    simp only [dense_append, dense_pad, dense_name h1, List.append_assoc]
    rw [tidy_append hc]
    congr 1
    cases k with
    | word =>
      rw [h2 rfl]
      simp [openingLines, closingLines, opening, closing, linesParts, lineParts, dense]
    | record =>
      cases ps with
      | nil => exact absurd rfl (h3 rfl)
      | cons l v r =>
        show closeUp ('{' :: (dense (linesParts .record (.cons l v r)) ++ '}' :: s)) =
          '{' :: (dense (lineParts .record true (.cons l v r)) ++ '}' :: closeUp s)
        rw [tidy_cons (by decide), hp (by simp [Closes]), tidy_cons (by decide)]
    | tuple =>
      cases ps with
      | nil => exact absurd rfl (h4 rfl)
      | cons l v r =>
        show closeUp ('(' :: (dense (linesParts .tuple (.cons l v r)) ++ ')' :: s)) =
          '(' :: (dense (lineParts .tuple true (.cons l v r)) ++ ')' :: closeUp s)
        rw [tidy_cons (by decide), hp (by simp [Closes]), tidy_cons (by decide)]
    | list =>
      have : dense (openingLines .list ps) = ['['] ∧ dense (closingLines .list ps) = [']'] ∧
          dense (opening .list ps) = ['['] ∧ dense (closing .list ps) = [']'] := by
        cases ps <;> exact ⟨rfl, rfl, rfl, rfl⟩
      rw [this.1, this.2.1, this.2.2.1, this.2.2.2]
      show closeUp ('[' :: (dense (linesParts .list ps) ++ ']' :: s)) = '[' :: (dense (lineParts .list true ps) ++ ']' :: closeUp s)
      rw [tidy_cons (by decide), hp (by simp [Closes]), tidy_cons (by decide)]
theorem tidy_linesParts : ∀ (p : DbgParts) (k : DbgShape), p.Plain k → ∀ {c : Char}, Closes c → ∀ {s},
    closeUp (dense (linesParts k p) ++ c :: s) = dense (lineParts k true p) ++ closeUp (c :: s)
  | .nil, _, _, _, _, _ => by rw [linesParts, lineParts]; rfl
  | .cons l v r, k, h, c, hc, s => by
    have hr := h
    rw [DbgParts.Plain] at h
    obtain ⟨_, _, h3, h4, h5⟩ := h
    have ih := tidy_linesParts r k h4 hc (s := s)
    rw [linesParts, lineParts]
    simp only [dense_append, List.append_assoc]
    rw [tidy_append (label_dense h5).1, tidy_lines v h3]
    rw [show dense (if True then [] else ", ".toList) = [] from rfl, List.nil_append]
    congr 1
    congr 1
    show closeUp (',' :: (dense (linesParts k r) ++ c :: s)) = _
    cases r with
    | nil =>
      rw [linesParts, lineParts]
      exact tidy_comma_close hc s
    | cons l' v' r' =>
      rw [tidy_comma (linesParts_head h4 _), ih, lineParts_false, List.cons_append]
end

end DbgVal
end Verif
