import Verif.Model.DebugText
/-!
# A text laid out by the builders of `core::fmt` tells the value that was shown
-/

namespace Verif

/-- The characters that the layout uses. -/
def Structural (c : Char) : Prop :=
  c = ',' ∨ c = '(' ∨ c = ')' ∨ c = '[' ∨ c = ']' ∨ c = '{' ∨ c = '}' ∨ c = ' ' ∨ c = '\n'

instance (c : Char) : Decidable (Structural c) := by unfold Structural; infer_instance

mutual
/-- Names contain no character of the layout, words have no parts, records and tuples have some, and
exactly the lists have no name. -/
def DbgVal.Plain : DbgVal → Prop
  | .mk k name ps => (∀ c ∈ name.toList, ¬ Structural c) ∧
    (k = .word → ps = .nil) ∧ (k = .record → ps ≠ .nil) ∧ (k = .tuple → ps ≠ .nil) ∧
    (k = .list ↔ name = "") ∧ ps.Plain k
/-- Labels contain no colon and no character of the layout; parts of tuples and lists have no label. -/
def DbgParts.Plain : DbgShape → DbgParts → Prop
  | _, .nil => True
  | k, .cons l v rest => ':' ∉ l.toList ∧ (k ≠ .record → l = "") ∧ v.Plain ∧ rest.Plain k ∧
    ∀ c ∈ l.toList, ¬ Structural c
end

namespace DbgVal

/-- What may come after a value. -/
def Follows : List Char → Prop
  | [] => True
  | ',' :: _ => True
  | ')' :: _ => True
  | ']' :: _ => True
  | ' ' :: '}' :: _ => True
  | _ => False

/-- A list of characters that does not go on with a name. -/
def Stops : List Char → Prop
  | [] => True
  | c :: _ => Structural c

theorem Follows.stops {s : List Char} (h : Follows s) : Stops s := by
  unfold Follows at h
  split at h <;> first | trivial | (simp [Stops, Structural]) | cases h

theorem name_split : ∀ {n1 n2 r1 r2 : List Char}, (∀ c ∈ n1, ¬ Structural c) → (∀ c ∈ n2, ¬ Structural c) →
    Stops r1 → Stops r2 → n1 ++ r1 = n2 ++ r2 → n1 = n2 ∧ r1 = r2
  | [], [], _, _, _, _, _, _, h => ⟨rfl, h⟩
  | [], c :: n2, r1, r2, _, h2, s1, _, h => by
    simp only [List.nil_append, List.cons_append] at h
    subst h
    exact absurd s1 (h2 c (by simp))
  | c :: n1, [], r1, r2, h1, _, _, s2, h => by
    simp only [List.nil_append, List.cons_append] at h
    subst h
    exact absurd s2 (h1 c (by simp))
  | c :: n1, d :: n2, r1, r2, h1, h2, s1, s2, h => by
    simp only [List.cons_append, List.cons.injEq] at h
    obtain ⟨hc, h⟩ := h
    obtain ⟨e1, e2⟩ := name_split (fun x hx => h1 x (by simp [hx])) (fun x hx => h2 x (by simp [hx])) s1 s2 h
    exact ⟨by rw [hc, e1], e2⟩

theorem label_split : ∀ {l1 l2 r1 r2 : List Char}, ':' ∉ l1 → ':' ∉ l2 →
    l1 ++ ':' :: r1 = l2 ++ ':' :: r2 → l1 = l2 ∧ r1 = r2
  | [], [], _, _, _, _, h => ⟨rfl, by simpa using h⟩
  | [], c :: l2, r1, r2, _, h2, h => by
    simp only [List.nil_append, List.cons_append, List.cons.injEq] at h
    exact absurd (h.1 ▸ List.mem_cons_self) h2
  | c :: l1, [], r1, r2, h1, _, h => by
    simp only [List.nil_append, List.cons_append, List.cons.injEq] at h
    exact absurd (h.1 ▸ List.mem_cons_self) h1
  | c :: l1, d :: l2, r1, r2, h1, h2, h => by
    simp only [List.cons_append, List.cons.injEq] at h
    simp only [List.mem_cons, not_or] at h1 h2
    obtain ⟨e1, e2⟩ := label_split h1.2 h2.2 h.2
    exact ⟨by rw [h.1, e1], e2⟩

theorem labelText_split {k : DbgShape} {l1 l2 : String} {r1 r2 : List Char}
    (h1 : ':' ∉ l1.toList) (h2 : ':' ∉ l2.toList) (e1 : k ≠ .record → l1 = "") (e2 : k ≠ .record → l2 = "")
    (h : labelText k l1 ++ r1 = labelText k l2 ++ r2) : l1 = l2 ∧ r1 = r2 := by
  by_cases hk : k = .record
  · subst hk
    have h' : l1.toList ++ ':' :: (' ' :: r1) = l2.toList ++ ':' :: (' ' :: r2) := by
      simpa [labelText] using h
    obtain ⟨a, b⟩ := label_split h1 h2 h'
    exact ⟨String.toList_injective a, by simpa using b⟩
  · rw [e1 hk, e2 hk] at h ⊢
    exact ⟨rfl, by simpa using h⟩

/-- After the name of a value comes what its shape says. -/
def after (k : DbgShape) (ps : DbgParts) (s : List Char) : List Char :=
  opening k ps ++ (lineParts k true ps ++ (closing k ps ++ s))

theorem line_append (k : DbgShape) (name : String) (ps : DbgParts) (s : List Char) :
    (DbgVal.mk k name ps).line ++ s = name.toList ++ after k ps s := by
  simp [line, after]

theorem after_stops {k : DbgShape} {ps : DbgParts} {s : List Char} (hp : (k = .word → ps = .nil))
    (h : Follows s) : Stops (after k ps s) := by
  cases k with
  | word => rw [hp rfl]; simpa [after, opening, lineParts, closing] using h.stops
  | record =>
    cases ps with
    | nil => simpa [after, opening, lineParts, closing] using h.stops
    | cons => simp [after, opening, Stops, Structural]
  | tuple =>
    cases ps with
    | nil => simpa [after, opening, lineParts, closing] using h.stops
    | cons => simp [after, opening, Stops, Structural]
  | list => simp [after, opening, Stops, Structural]

/-- What ends a value with parts. -/
def closeOf : DbgShape → List Char
  | .word => []
  | .record => " }".toList
  | .tuple => [')']
  | .list => [']']

theorem tail_follows {k : DbgShape} (hk : k ≠ .word) (ps : DbgParts) (s : List Char) :
    Follows (lineParts k false ps ++ (closeOf k ++ s)) := by
  cases ps with
  | nil => cases k <;> first | exact absurd rfl hk | simp [lineParts, closeOf, Follows]
  | cons => simp [lineParts, Follows]

theorem shape_of_after {k1 k2 : DbgShape} {p1 p2 : DbgParts} {s1 s2 : List Char}
    (w1 : k1 = .word → p1 = .nil) (r1 : k1 = .record → p1 ≠ .nil) (t1 : k1 = .tuple → p1 ≠ .nil)
    (w2 : k2 = .word → p2 = .nil) (r2 : k2 = .record → p2 ≠ .nil) (t2 : k2 = .tuple → p2 ≠ .nil)
    (f1 : Follows s1) (f2 : Follows s2) (h : after k1 p1 s1 = after k2 p2 s2) : k1 = k2 := by
  have word_not : ∀ {k : DbgShape} {p : DbgParts} {s t : List Char}, k ≠ .word → (k = .record → p ≠ .nil) →
      (k = .tuple → p ≠ .nil) → Follows t → t ≠ after k p s := by
    intro k p s t hk hr ht hf he
    subst he
    cases k with
    | word => exact hk rfl
    | record =>
      cases p with
      | nil => exact hr rfl rfl
      | cons => simp [after, opening, Follows] at hf
    | tuple =>
      cases p with
      | nil => exact ht rfl rfl
      | cons => simp [after, opening, Follows] at hf
    | list => simp [after, opening, Follows] at hf
  have word_is : ∀ {p : DbgParts} {s : List Char}, p = .nil → after .word p s = s := by
    intro p s hp; subst hp; rfl
  cases k1 <;> cases k2 <;> first
    | rfl
    | (rw [word_is (w1 rfl)] at h; exact absurd h (word_not (by simp) r2 t2 f1))
    | (rw [word_is (w2 rfl)] at h; exact absurd h.symm (word_not (by simp) r1 t1 f2))
    | (exfalso
       cases p1 with
       | nil => first | exact r1 rfl rfl | exact t1 rfl rfl | (cases p2 with
         | nil => first | exact r2 rfl rfl | exact t2 rfl rfl
         | cons => simp [after, opening] at h)
       | cons => cases p2 with
         | nil => first | exact r2 rfl rfl | exact t2 rfl rfl | simp [after, opening] at h
         | cons => simp [after, opening] at h)

/-- A value in a list is not shown as nothing. -/
theorem line_not_close (v : DbgVal) (s r : List Char) (hv : v.Plain) (h : v.line ++ s = ']' :: r) : False := by
  obtain ⟨k, n, p⟩ := v
  rw [line_append] at h
  rw [DbgVal.Plain] at hv
  cases hn : n.toList with
  | nil =>
    have : n = "" := String.toList_injective hn
    have hk := hv.2.2.2.2.1.mpr this
    subst hk
    simp [hn, after, opening] at h
  | cons c t =>
    simp only [hn, List.cons_append, List.cons.injEq] at h
    exact hv.1 c (by simp [hn]) (by simp [Structural, h.1])

mutual
theorem line_inj : ∀ (v1 v2 : DbgVal) (s1 s2 : List Char), v1.Plain → v2.Plain → Follows s1 → Follows s2 →
    v1.line ++ s1 = v2.line ++ s2 → v1 = v2 ∧ s1 = s2
  | .mk k1 n1 p1, .mk k2 n2 p2, s1, s2, h1, h2, f1, f2, h => by
    rw [line_append, line_append] at h
    rw [DbgVal.Plain] at h1 h2
    obtain ⟨a1, w1, r1, t1, l1, g1⟩ := h1
    obtain ⟨a2, w2, r2, t2, l2, g2⟩ := h2
    obtain ⟨hn, hb⟩ := name_split a1 a2 (after_stops w1 f1) (after_stops w2 f2) h
    clear h
    have hn := String.toList_injective hn
    have hk := shape_of_after w1 r1 t1 w2 r2 t2 f1 f2 hb
    subst hk hn
    have h := hb
    clear hb
    have key : p1 = p2 ∧ s1 = s2 := by
      cases p1 with
      | nil =>
        cases p2 with
        | nil => exact ⟨rfl, by simpa [after, lineParts] using h⟩
        | cons l v rest =>
          exfalso
          cases k1 with
          | word => exact absurd (w2 rfl) (by simp)
          | record => exact r1 rfl rfl
          | tuple => exact t1 rfl rfl
          | list =>
            rw [DbgParts.Plain] at g2
            simp only [after, opening, lineParts, closing, labelText, List.nil_append, List.append_assoc,
              List.cons_append, List.cons.injEq, true_and, ↓reduceIte] at h
            exact line_not_close v _ _ g2.2.2.1 h.symm
      | cons l v rest =>
        rw [DbgParts.Plain] at g1
        cases p2 with
        | nil =>
          exfalso
          cases k1 with
          | word => exact absurd (w1 rfl) (by simp)
          | record => exact r2 rfl rfl
          | tuple => exact t2 rfl rfl
          | list =>
            simp only [after, opening, lineParts, closing, labelText, List.nil_append, List.append_assoc,
              List.cons_append, List.cons.injEq, true_and, ↓reduceIte] at h
            exact line_not_close v _ _ g1.2.2.1 h
        | cons l' v' rest' =>
          rw [DbgParts.Plain] at g2
          have hw : k1 ≠ .word := fun hk => absurd (w1 hk) (by simp)
          have h' : labelText k1 l ++ (v.line ++ (lineParts k1 false rest ++ (closeOf k1 ++ s1))) =
              labelText k1 l' ++ (v'.line ++ (lineParts k1 false rest' ++ (closeOf k1 ++ s2))) := by
            cases k1 <;> first
              | exact absurd rfl hw
              | simpa [after, opening, lineParts, closing, closeOf] using h
          obtain ⟨hl, h'⟩ := labelText_split g1.1 g2.1 g1.2.1 g2.2.1 h'
          obtain ⟨hv, h'⟩ := line_inj v v' _ _ g1.2.2.1 g2.2.2.1 (tail_follows hw rest s1)
            (tail_follows hw rest' s2) h'
          obtain ⟨hr, hs⟩ := tail_inj rest rest' k1 hw s1 s2 g1.2.2.2.1 g2.2.2.2.1 h'
          exact ⟨by rw [hl, hv, hr], hs⟩
    exact ⟨by rw [key.1], key.2⟩
theorem tail_inj : ∀ (p1 p2 : DbgParts) (k : DbgShape), k ≠ .word → ∀ (s1 s2 : List Char), p1.Plain k → p2.Plain k →
    lineParts k false p1 ++ (closeOf k ++ s1) = lineParts k false p2 ++ (closeOf k ++ s2) → p1 = p2 ∧ s1 = s2
  | .nil, .nil, k, _, s1, s2, _, _, h => ⟨rfl, by simpa [lineParts] using h⟩
  | .nil, .cons .., k, hk, s1, s2, _, _, h => by
    cases k <;> first | exact absurd rfl hk | simp [lineParts, closeOf] at h
  | .cons .., .nil, k, hk, s1, s2, _, _, h => by
    cases k <;> first | exact absurd rfl hk | simp [lineParts, closeOf] at h
  | .cons l v rest, .cons l' v' rest', k, hk, s1, s2, g1, g2, h => by
    rw [DbgParts.Plain] at g1 g2
    have h' : labelText k l ++ (v.line ++ (lineParts k false rest ++ (closeOf k ++ s1))) =
        labelText k l' ++ (v'.line ++ (lineParts k false rest' ++ (closeOf k ++ s2))) := by
      simpa [lineParts] using h
    obtain ⟨hl, h'⟩ := labelText_split g1.1 g2.1 g1.2.1 g2.2.1 h'
    obtain ⟨hv, h'⟩ := line_inj v v' _ _ g1.2.2.1 g2.2.2.1 (tail_follows hk rest s1)
      (tail_follows hk rest' s2) h'
    obtain ⟨hr, hs⟩ := tail_inj rest rest' k hk s1 s2 g1.2.2.2.1 g2.2.2.2.1 h'
    exact ⟨by rw [hl, hv, hr], hs⟩
end

/-! ### On many lines -/

/-- The text consists of whole lines. -/
def Whole : Bool → List Char → Prop
  | nl, [] => nl = true
  | _, c :: cs => Whole (c == '\n') cs

theorem whole_append : ∀ (nl : Bool) (a b : List Char), Whole true b → Whole nl (a ++ '\n' :: b)
  | _, [], _, h => by simpa [Whole] using h
  | _, c :: a, b, h => by simpa [Whole] using whole_append (c == '\n') a b h

theorem linesParts_whole (k : DbgShape) : ∀ (p : DbgParts), Whole true (linesParts k p)
  | .nil => rfl
  | .cons l v rest => by
    have := whole_append true (labelText k l ++ v.lines ++ [',']) (linesParts k rest) (linesParts_whole k rest)
    simpa [linesParts] using this

/-- Whole lines that were indented end where a line is not indented. -/
theorem pad_split : ∀ (nl : Bool) (a1 a2 : List Char) (c1 c2 : Char) (r1 r2 : List Char),
    Whole nl a1 → Whole nl a2 → c1 ≠ ' ' → c2 ≠ ' ' →
    padAdapter nl a1 ++ c1 :: r1 = padAdapter nl a2 ++ c2 :: r2 → a1 = a2 ∧ c1 :: r1 = c2 :: r2
  | _, [], [], _, _, _, _, _, _, _, _, h => ⟨rfl, h⟩
  | _, [], c :: a2, c1, c2, r1, r2, w1, _, n1, _, h => by
    cases w1
    simp [padAdapter] at h
    exact absurd h.1 n1
  | _, c :: a1, [], c1, c2, r1, r2, _, w2, _, n2, h => by
    cases w2
    simp [padAdapter] at h
    exact absurd h.1.symm n2
  | nl, c :: a1, d :: a2, c1, c2, r1, r2, w1, w2, n1, n2, h => by
    have h' : c = d ∧ padAdapter (c == '\n') a1 ++ c1 :: r1 = padAdapter (d == '\n') a2 ++ c2 :: r2 := by
      cases nl <;> simpa [padAdapter] using h
    obtain ⟨hc, h'⟩ := h'
    subst hc
    obtain ⟨e1, e2⟩ := pad_split _ a1 a2 c1 c2 r1 r2 w1 w2 n1 n2 h'
    exact ⟨by rw [e1], e2⟩

/-- After the name of a value comes what its shape says. -/
def afterLines (k : DbgShape) (ps : DbgParts) (s : List Char) : List Char :=
  openingLines k ps ++ (padAdapter true (linesParts k ps) ++ (closingLines k ps ++ s))

theorem lines_append (k : DbgShape) (name : String) (ps : DbgParts) (s : List Char) :
    (DbgVal.mk k name ps).lines ++ s = name.toList ++ afterLines k ps s := by
  simp [lines, afterLines]

theorem afterLines_stops {k : DbgShape} {ps : DbgParts} {s : List Char} (hp : (k = .word → ps = .nil))
    (h : Follows s) : Stops (afterLines k ps s) := by
  cases k with
  | word => rw [hp rfl]; simpa [afterLines, openingLines, linesParts, closingLines, padAdapter] using h.stops
  | record =>
    cases ps with
    | nil => simpa [afterLines, openingLines, linesParts, closingLines, padAdapter] using h.stops
    | cons => simp [afterLines, openingLines, Stops, Structural]
  | tuple =>
    cases ps with
    | nil => simpa [afterLines, openingLines, linesParts, closingLines, padAdapter] using h.stops
    | cons => simp [afterLines, openingLines, Stops, Structural]
  | list =>
    cases ps <;> simp [afterLines, openingLines, Stops, Structural]

theorem shape_of_afterLines {k1 k2 : DbgShape} {p1 p2 : DbgParts} {s1 s2 : List Char}
    (w1 : k1 = .word → p1 = .nil) (r1 : k1 = .record → p1 ≠ .nil) (t1 : k1 = .tuple → p1 ≠ .nil)
    (w2 : k2 = .word → p2 = .nil) (r2 : k2 = .record → p2 ≠ .nil) (t2 : k2 = .tuple → p2 ≠ .nil)
    (f1 : Follows s1) (f2 : Follows s2) (h : afterLines k1 p1 s1 = afterLines k2 p2 s2) : k1 = k2 := by
  have word_not : ∀ {k : DbgShape} {p : DbgParts} {s t : List Char}, k ≠ .word → (k = .record → p ≠ .nil) →
      (k = .tuple → p ≠ .nil) → Follows t → t ≠ afterLines k p s := by
    intro k p s t hk hr ht hf he
    subst he
    cases k with
    | word => exact hk rfl
    | record =>
      cases p with
      | nil => exact hr rfl rfl
      | cons => simp [afterLines, openingLines, Follows] at hf
    | tuple =>
      cases p with
      | nil => exact ht rfl rfl
      | cons => simp [afterLines, openingLines, Follows] at hf
    | list => cases p <;> simp [afterLines, openingLines, Follows] at hf
  have word_is : ∀ {p : DbgParts} {s : List Char}, p = .nil → afterLines .word p s = s := by
    intro p s hp; subst hp; rfl
  cases k1 <;> cases k2 <;> first
    | rfl
    | (rw [word_is (w1 rfl)] at h; exact absurd h (word_not (by simp) r2 t2 f1))
    | (rw [word_is (w2 rfl)] at h; exact absurd h.symm (word_not (by simp) r1 t1 f2))
    | (exfalso
       cases p1 with
       | nil => first | exact r1 rfl rfl | exact t1 rfl rfl | (cases p2 with
         | nil => first | exact r2 rfl rfl | exact t2 rfl rfl
         | cons => simp [afterLines, openingLines] at h)
       | cons => cases p2 with
         | nil => first | exact r2 rfl rfl | exact t2 rfl rfl | simp [afterLines, openingLines] at h
         | cons => simp [afterLines, openingLines] at h)

mutual
theorem lines_inj : ∀ (v1 v2 : DbgVal) (s1 s2 : List Char), v1.Plain → v2.Plain → Follows s1 → Follows s2 →
    v1.lines ++ s1 = v2.lines ++ s2 → v1 = v2 ∧ s1 = s2
  | .mk k1 n1 p1, .mk k2 n2 p2, s1, s2, h1, h2, f1, f2, h => by
    rw [lines_append, lines_append] at h
    rw [DbgVal.Plain] at h1 h2
    obtain ⟨a1, w1, r1, t1, l1, g1⟩ := h1
    obtain ⟨a2, w2, r2, t2, l2, g2⟩ := h2
    obtain ⟨hn, hb⟩ := name_split a1 a2 (afterLines_stops w1 f1) (afterLines_stops w2 f2) h
    clear h
    have hn := String.toList_injective hn
    have hk := shape_of_afterLines w1 r1 t1 w2 r2 t2 f1 f2 hb
    subst hk hn
    have h := hb
    clear hb
    have key : p1 = p2 ∧ s1 = s2 := by
      cases p1 with
      | nil =>
        cases p2 with
        | nil => exact ⟨rfl, by simpa [afterLines, linesParts] using h⟩
        | cons l v rest =>
          exfalso
          cases k1 with
          | word => exact absurd (w2 rfl) (by simp)
          | record => exact r1 rfl rfl
          | tuple => exact t1 rfl rfl
          | list => simp [afterLines, openingLines, linesParts, closingLines, padAdapter] at h
      | cons l v rest =>
        cases p2 with
        | nil =>
          exfalso
          cases k1 with
          | word => exact absurd (w1 rfl) (by simp)
          | record => exact r2 rfl rfl
          | tuple => exact t2 rfl rfl
          | list => simp [afterLines, openingLines, linesParts, closingLines, padAdapter] at h
        | cons l' v' rest' =>
          have hw : k1 ≠ .word := fun hk => absurd (w1 hk) (by simp)
          obtain ⟨c, hc, h'⟩ : ∃ c : Char, c ≠ ' ' ∧
              padAdapter true (linesParts k1 (.cons l v rest)) ++ c :: s1 =
              padAdapter true (linesParts k1 (.cons l' v' rest')) ++ c :: s2 := by
            cases k1 with
            | word => exact absurd rfl hw
            | record => exact ⟨'}', by decide, by simpa [afterLines, openingLines, closingLines] using h⟩
            | tuple => exact ⟨')', by decide, by simpa [afterLines, openingLines, closingLines] using h⟩
            | list => exact ⟨']', by decide, by simpa [afterLines, openingLines, closingLines] using h⟩
          obtain ⟨hp, hs⟩ := pad_split true _ _ c c s1 s2 (linesParts_whole k1 _) (linesParts_whole k1 _) hc hc h'
          rw [DbgParts.Plain] at g1 g2
          simp only [linesParts, List.append_assoc] at hp
          obtain ⟨hl, hp⟩ := labelText_split g1.1 g2.1 g1.2.1 g2.2.1 hp
          obtain ⟨hv, hp⟩ := lines_inj v v' _ _ g1.2.2.1 g2.2.2.1 (by simp [Follows]) (by simp [Follows]) hp
          have hr := linesParts_inj rest rest' k1 g1.2.2.2.1 g2.2.2.2.1 (by simpa using hp)
          exact ⟨by rw [hl, hv, hr], by simpa using hs⟩
    exact ⟨by rw [key.1], key.2⟩
theorem linesParts_inj : ∀ (p1 p2 : DbgParts) (k : DbgShape), p1.Plain k → p2.Plain k →
    linesParts k p1 = linesParts k p2 → p1 = p2
  | .nil, .nil, _, _, _, _ => rfl
  | .nil, .cons .., k, _, _, h => by simp [linesParts] at h
  | .cons .., .nil, k, _, _, h => by simp [linesParts] at h
  | .cons l v rest, .cons l' v' rest', k, g1, g2, hp => by
    rw [DbgParts.Plain] at g1 g2
    simp only [linesParts, List.append_assoc] at hp
    obtain ⟨hl, hp⟩ := labelText_split g1.1 g2.1 g1.2.1 g2.2.1 hp
    obtain ⟨hv, hp⟩ := lines_inj v v' _ _ g1.2.2.1 g2.2.2.1 (by simp [Follows]) (by simp [Follows]) hp
    have hr := linesParts_inj rest rest' k g1.2.2.2.1 g2.2.2.2.1 (by simpa using hp)
    rw [hl, hv, hr]
end

mutual
/-- On one line, there is no line break. -/
theorem line_newline : ∀ (v : DbgVal), v.Plain → '\n' ∉ v.line
  | .mk k n p, h => by
    rw [DbgVal.Plain] at h
    have hn : '\n' ∉ n.toList := fun hc => h.1 _ hc (by simp [Structural])
    have hp := lineParts_newline p k true h.2.2.2.2.2
    simp only [line, List.mem_append, not_or]
    refine ⟨⟨⟨hn, ?_⟩, hp⟩, ?_⟩ <;> cases k <;> cases p <;> simp [opening, closing]
theorem lineParts_newline : ∀ (p : DbgParts) (k : DbgShape) (first : Bool), p.Plain k → '\n' ∉ lineParts k first p
  | .nil, _, _, _ => by simp [lineParts]
  | .cons l v rest, k, first, h => by
    rw [DbgParts.Plain] at h
    have hl : '\n' ∉ l.toList := fun hc => h.2.2.2.2 _ hc (by simp [Structural])
    have hv := line_newline v h.2.2.1
    have hr := lineParts_newline rest k false h.2.2.2.1
    simp only [lineParts, List.mem_append, not_or]
    refine ⟨⟨⟨?_, ?_⟩, hv⟩, hr⟩
    · cases first <;> simp
    · cases k <;> simp [labelText, hl]
end

/-- The text of a value, in either layout, tells the value. -/
theorem text_inj {alternate : Bool} {v1 v2 : DbgVal} (h1 : v1.Plain) (h2 : v2.Plain)
    (h : v1.text alternate = v2.text alternate) : v1 = v2 := by
  unfold text at h
  have h := String.ofList_injective h
  cases alternate with
  | false => exact (line_inj v1 v2 [] [] h1 h2 trivial trivial (by simpa using h)).1
  | true => exact (lines_inj v1 v2 [] [] h1 h2 trivial trivial (by simpa using h)).1

end DbgVal
end Verif
