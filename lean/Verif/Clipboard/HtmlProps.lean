import Verif.Clipboard.RichModel
/-
C47: HTML rich text round-trips, and text cannot break out of the markup.
-/
set_option linter.unusedVariables false
set_option linter.unusedSimpArgs false
namespace Phoenix.Clip

/-! ### Scanner lemmas -/

theorem replaceRe_skip (m : Matcher) (a b : Str) : replaceRe m a.length (a ++ b) = replaceRe m 0 b := by
  induction a with
  | nil => rfl
  | cons x a ih => simpa [replaceRe] using ih

theorem findAllRe_skip (m : Matcher) (a b : Str) : findAllRe m a.length (a ++ b) = findAllRe m 0 b := by
  induction a with
  | nil => rfl
  | cons x a ih => simpa [findAllRe] using ih

theorem replaceRe_pass (m : Matcher) (a b : Str) (h : ∀ x ∈ a, ∀ t, m (x :: t) = none) :
    replaceRe m 0 (a ++ b) = a ++ replaceRe m 0 b := by
  induction a with
  | nil => rfl
  | cons x a ih =>
    simp only [List.cons_append, replaceRe, h x (by simp)]
    rw [ih (fun y hy => h y (by simp [hy]))]

theorem findAllRe_pass (m : Matcher) (a b : Str) (h : ∀ x ∈ a, ∀ t, m (x :: t) = none) :
    findAllRe m 0 (a ++ b) = findAllRe m 0 b := by
  induction a with
  | nil => rfl
  | cons x a ih =>
    simp only [List.cons_append, findAllRe, h x (by simp)]
    rw [ih (fun y hy => h y (by simp [hy]))]

theorem findRe_pass {α : Type} (m : Str → Option α) (a b : Str) (h : ∀ x ∈ a, ∀ t, m (x :: t) = none) :
    findRe m (a ++ b) = findRe m b := by
  induction a with
  | nil => rfl
  | cons x a ih =>
    simp only [List.cons_append, findRe, h x (by simp)]
    rw [ih (fun y hy => h y (by simp [hy]))]

theorem contains_pass (c : Nat) (q a b : Str) (h : c ∉ a) :
    containsStr (c :: q) (a ++ b) = containsStr (c :: q) b := by
  induction a with
  | nil => rfl
  | cons x a ih =>
    simp only [List.mem_cons, not_or] at h
    have hx : (c == x) = false := by simpa using h.1
    simp only [List.cons_append, containsStr, List.isPrefixOf, hx, Bool.false_and, Bool.false_or]
    exact ih h.2

theorem contains_head (c : Nat) (q a b : Str) (h : c ∉ a) :
    containsStr (c :: q) (c :: (a ++ b)) = (q.isPrefixOf (a ++ b) || containsStr (c :: q) b) := by
  simp only [containsStr, List.isPrefixOf, beq_self_eq_true, Bool.true_and]
  rw [contains_pass c q a b h]

/-! ### Tags -/

theorem tagAt_other {x : Nat} (h : x ≠ 60) (t : Str) : tagAt (x :: t) = none := by
  unfold tagAt
  split
  · rename_i heq; simp at heq; exact absurd heq.1 h
  · rfl

theorem tagAt_tag (a b : Str) (h : 62 ∉ a) : tagAt (60 :: (a ++ 62 :: b)) = some (a.length + 2, []) := by
  have h1 : (a ++ 62 :: b).contains 62 = true := by simp
  have h2 : (a ++ 62 :: b).takeWhile (· != 62) = a := by
    rw [List.takeWhile_append_of_pos]
    · simp
    · intro x hx
      have : x ≠ 62 := fun h0 => h (h0 ▸ hx)
      simpa using this
  simp only [tagAt, h1, h2, if_true]

theorem replace_tag (a b : Str) (h : 62 ∉ a) :
    replaceRe tagAt 0 (60 :: (a ++ 62 :: b)) = replaceRe tagAt 0 b := by
  simp only [replaceRe, tagAt_tag a b h, List.nil_append]
  have := replaceRe_skip tagAt (a ++ [62]) b
  simpa using this

theorem findAll_tag (a b : Str) (h : 62 ∉ a) :
    findAllRe tagAt 0 (60 :: (a ++ 62 :: b)) = (60 :: (a ++ [62])) :: findAllRe tagAt 0 b := by
  simp only [findAllRe, tagAt_tag a b h]
  have := findAllRe_skip tagAt (a ++ [62]) b
  have e : (60 :: (a ++ 62 :: b)).take (a.length + 2) = 60 :: (a ++ [62]) := by
    simp [List.take_append, List.take_of_length_le]
  rw [e]
  simp only [List.length_append, List.length_cons, List.length_nil, List.append_assoc, List.cons_append,
    List.nil_append] at this
  simpa using this

theorem replace_text (a b : Str) (h : 60 ∉ a) : replaceRe tagAt 0 (a ++ b) = a ++ replaceRe tagAt 0 b :=
  replaceRe_pass _ _ _ (fun x hx t => tagAt_other (fun h0 => h (h0 ▸ hx)) t)

theorem findAll_text (a b : Str) (h : 60 ∉ a) : findAllRe tagAt 0 (a ++ b) = findAllRe tagAt 0 b :=
  findAllRe_pass _ _ _ (fun x hx t => tagAt_other (fun h0 => h (h0 ▸ hx)) t)

/-! ### Escaping -/

theorem esc_chars (s : Str) : ∀ x ∈ escapeHTML s, x ≠ 60 ∧ x ≠ 62 ∧ x ≠ 34 ∧ x ≠ 39 := by
  intro x hx
  simp only [escapeHTML, List.mem_flatMap] at hx
  obtain ⟨c, _, hx⟩ := hx
  unfold escByte at hx
  (repeat' split at hx) <;> simp at hx <;> omega

theorem esc_ne {s : Str} (h : s ≠ []) : escapeHTML s ≠ [] := by
  cases s with
  | nil => exact absurd rfl h
  | cons c s =>
    unfold escapeHTML
    simp only [List.flatMap_cons]
    unfold escByte
    (repeat' split) <;> simp

theorem entityAt_other (T : HtmlTables) {x : Nat} (h : x ≠ 38) (t : Str) : entityAt T (x :: t) = none := by
  unfold entityAt
  split
  · rename_i heq; simp at heq; exact absurd heq.1 h
  · rename_i heq; simp at heq; exact absurd heq.1 h
  · rfl

theorem named_amp (T : HtmlTables) (t : Str) : entityAt T (38 :: 97 :: 109 :: 112 :: 59 :: t) = some (5, [38]) := by
  have h1 : (97 :: 109 :: 112 :: 59 :: t).takeWhile isAlnum = [97, 109, 112] := rfl
  simp [entityAt, namedRef, h1, semi, T.amp]

theorem named_lt (T : HtmlTables) (t : Str) : entityAt T (38 :: 108 :: 116 :: 59 :: t) = some (4, [60]) := by
  have h1 : (108 :: 116 :: 59 :: t).takeWhile isAlnum = [108, 116] := rfl
  simp [entityAt, namedRef, h1, semi, T.lt]

theorem named_gt (T : HtmlTables) (t : Str) : entityAt T (38 :: 103 :: 116 :: 59 :: t) = some (4, [62]) := by
  have h1 : (103 :: 116 :: 59 :: t).takeWhile isAlnum = [103, 116] := rfl
  simp [entityAt, namedRef, h1, semi, T.gt]

theorem num_39 (T : HtmlTables) (t : Str) : entityAt T (38 :: 35 :: 51 :: 57 :: 59 :: t) = some (5, [39]) := by
  have h1 : refDigits false (51 :: 57 :: 59 :: t) = [51, 57] := rfl
  have h2 : refValue false [51, 57] = 39 := by decide
  simp [entityAt, numericRef, h1, h2, semi, T.ascii]

theorem num_34 (T : HtmlTables) (t : Str) : entityAt T (38 :: 35 :: 51 :: 52 :: 59 :: t) = some (5, [34]) := by
  have h1 : refDigits false (51 :: 52 :: 59 :: t) = [51, 52] := rfl
  have h2 : refValue false [51, 52] = 34 := by decide
  simp [entityAt, numericRef, h1, h2, semi, T.ascii]

theorem unescape_escape (T : HtmlTables) (s : Str) : unescapeHTML T (escapeHTML s) = s := by
  unfold unescapeHTML escapeHTML
  induction s with
  | nil => rfl
  | cons c s ih =>
    simp only [List.flatMap_cons]
    by_cases h1 : c = 38
    · subst h1
      simp only [escByte, if_true, List.cons_append, List.nil_append, replaceRe, named_amp]
      simpa [replaceRe] using ih
    · by_cases h2 : c = 60
      · subst h2
        simp only [escByte, h1, if_false, if_true, List.cons_append, List.nil_append, replaceRe, named_lt]
        simpa [replaceRe] using ih
      · by_cases h3 : c = 62
        · subst h3
          simp only [escByte, h1, h2, if_false, if_true, List.cons_append, List.nil_append, replaceRe, named_gt]
          simpa [replaceRe] using ih
        · by_cases h4 : c = 39
          · subst h4
            simp only [escByte, h1, h2, h3, if_false, if_true, List.cons_append, List.nil_append, replaceRe, num_39]
            simpa [replaceRe] using ih
          · by_cases h5 : c = 34
            · subst h5
              simp only [escByte, h1, h2, h3, h4, if_false, if_true, List.cons_append, List.nil_append, replaceRe, num_34]
              simpa [replaceRe] using ih
            · simp only [escByte, h1, h2, h3, h4, h5, if_false, List.cons_append, List.nil_append, replaceRe,
                entityAt_other T h1]
              rw [ih]

/-! ### Colours -/

/-- A colour a style may carry: none, or #RRGGBB. -/
def ColorOk (c : Str) : Prop :=
  c = [] ∨ ∃ a b d e f g, c = [35, a, b, d, e, f, g] ∧ isHex a = true ∧ isHex b = true ∧ isHex d = true ∧
    isHex e = true ∧ isHex f = true ∧ isHex g = true

theorem validColor_iff (c : Str) : validColor c = true ↔
    ∃ a b d e f g, c = [35, a, b, d, e, f, g] ∧ isHex a = true ∧ isHex b = true ∧ isHex d = true ∧
    isHex e = true ∧ isHex f = true ∧ isHex g = true := by
  constructor
  · intro h
    match c with
    | [] => simp [validColor] at h
    | x :: t =>
      simp only [validColor, Bool.and_eq_true, beq_iff_eq] at h
      obtain ⟨⟨h1, h2⟩, h3⟩ := h
      match t, h2 with
      | [a, b, d, e, f, g], _ =>
        simp at h3
        exact ⟨a, b, d, e, f, g, by rw [h1], h3.1, h3.2.1, h3.2.2.1, h3.2.2.2.1, h3.2.2.2.2.1, h3.2.2.2.2.2⟩
  · rintro ⟨a, b, d, e, f, g, rfl, h1, h2, h3, h4, h5, h6⟩
    simp [validColor, h1, h2, h3, h4, h5, h6]

theorem hex_ne {x : Nat} (h : isHex x = true) : x ≠ 60 ∧ x ≠ 62 ∧ x ≠ 34 ∧ isReSpace x = false := by
  simp only [isHex, Bool.or_eq_true, Bool.and_eq_true, decide_eq_true_eq] at h
  refine ⟨by omega, by omega, by omega, ?_⟩
  simp only [isReSpace, Bool.or_eq_false_iff, beq_eq_false_iff_ne]
  omega

/-- No quotation mark, no colour. -/
theorem findColor_none (s : Str) (h : 34 ∉ s) : findRe colorAt s = none := by
  have key : ∀ s : Str, 34 ∉ s → colorAt s = none := by
    intro s h
    unfold colorAt
    have : sStyle.isPrefixOf s = false := by
      rw [Bool.eq_false_iff]
      intro hp
      rw [List.isPrefixOf_iff_prefix] at hp
      obtain ⟨t, ht⟩ := hp
      apply h
      rw [← ht]
      simp [sStyle]
    simp [this]
  induction s with
  | nil => exact key [] h
  | cons x t ih =>
    simp only [findRe, key _ h]
    exact ih (fun h0 => h (by simp [h0]))

theorem colorAt_other {x : Nat} (h : x ≠ 115) (t : Str) : colorAt (x :: t) = none := by
  have : sStyle.isPrefixOf (x :: t) = false := by
    have hx : ((115 : Nat) == x) = false := by simpa using fun h0 => h h0.symm
    simp [sStyle, List.isPrefixOf, hx]
  simp [colorAt, this]

theorem findColor_span (a b d e f g : Nat) (t : Str)
    (h1 : isHex a = true) (h2 : isHex b = true) (h3 : isHex d = true) (h4 : isHex e = true) (h5 : isHex f = true)
    (h6 : isHex g = true) :
    findRe colorAt (sSpan1 ++ [35, a, b, d, e, f, g] ++ sSpan2 ++ t) = some [35, a, b, d, e, f, g] := by
  have e1 : colorAt (sStyle ++ [35, a, b, d, e, f, g] ++ sSpan2 ++ t) = some [35, a, b, d, e, f, g] := by
    have hp : sStyle.isPrefixOf (sStyle ++ [35, a, b, d, e, f, g] ++ sSpan2 ++ t) = true := by
      rw [List.isPrefixOf_iff_prefix, List.append_assoc, List.append_assoc]; exact List.prefix_append _ _
    have hd : (sStyle ++ [35, a, b, d, e, f, g] ++ sSpan2 ++ t).drop sStyle.length
        = 35 :: a :: b :: d :: e :: f :: g :: 34 :: 62 :: t := by
      rw [List.append_assoc, List.append_assoc, List.drop_left]; rfl
    unfold colorAt
    rw [if_pos hp, hd]
    have : (35 :: a :: b :: d :: e :: f :: g :: 34 :: 62 :: t).dropWhile isReSpace
        = 35 :: a :: b :: d :: e :: f :: g :: 34 :: 62 :: t := rfl
    rw [this]
    simp [h1, h2, h3, h4, h5, h6]
  have e2 : sSpan1 ++ [35, a, b, d, e, f, g] ++ sSpan2 ++ t
      = 60 :: 115 :: 112 :: 97 :: 110 :: 32 :: (sStyle ++ [35, a, b, d, e, f, g] ++ sSpan2 ++ t) := rfl
  have e3 : sStyle ++ [35, a, b, d, e, f, g] ++ sSpan2 ++ t
      = 115 :: (sStyle.tail ++ [35, a, b, d, e, f, g] ++ sSpan2 ++ t) := rfl
  have e4 : colorAt (115 :: 112 :: 97 :: 110 :: 32 :: (sStyle ++ [35, a, b, d, e, f, g] ++ sSpan2 ++ t)) = none := rfl
  rw [e2]
  simp only [findRe, colorAt_other (show (60 : Nat) ≠ 115 by decide), e4,
    colorAt_other (show (112 : Nat) ≠ 115 by decide), colorAt_other (show (97 : Nat) ≠ 115 by decide),
    colorAt_other (show (110 : Nat) ≠ 115 by decide), colorAt_other (show (32 : Nat) ≠ 115 by decide)]
  rw [e3] at e1 ⊢
  simp only [findRe, e1]

/-! ### The encoder's output -/

/-- The opening and closing tags the encoder puts around a text, outermost first. -/
def openTags (st : Styles) : List Str :=
  (if st.color = [] then [] else [sSpan1 ++ st.color ++ sSpan2]) ++ (if st.underline then [sU] else []) ++
  (if st.italic then [sEm] else []) ++ (if st.bold then [sStrong] else [])

def closeTags (st : Styles) : List Str :=
  (if st.bold then [sStrongEnd] else []) ++ (if st.italic then [sEmEnd] else []) ++
  (if st.underline then [sUEnd] else []) ++ (if st.color = [] then [] else [sSpanEnd])

theorem encode_shape (t : Str) (st : Styles) (ht : t ≠ []) :
    encodeHTML t st = (openTags st).flatten ++ escapeHTML t ++ (closeTags st).flatten := by
  obtain ⟨b, i, u, c⟩ := st
  unfold encodeHTML
  simp only [ht, if_false]
  by_cases hc : c = []
  · subst hc
    cases b <;> cases i <;> cases u <;> simp [Styles.isPlain, openTags, closeTags]
  · cases b <;> cases i <;> cases u <;> simp [Styles.isPlain, openTags, closeTags, hc]

/-- A tag: "<", no angle bracket, ">". -/
def IsTag (s : Str) : Prop := ∃ a, s = 60 :: (a ++ [62]) ∧ 60 ∉ a ∧ 62 ∉ a

theorem isTag_span (c : Str) (hc : ColorOk c) : IsTag (sSpan1 ++ c ++ sSpan2) := by
  refine ⟨sSpan1.tail ++ c ++ [34], by simp [sSpan1, sSpan2], ?_⟩
  have hx : ∀ x ∈ c, x ≠ 60 ∧ x ≠ 62 := by
    rcases hc with rfl | ⟨a, b, d, e, f, g, rfl, h1, h2, h3, h4, h5, h6⟩
    · simp
    · intro x hx
      simp only [List.mem_cons, List.not_mem_nil, or_false] at hx
      rcases hx with rfl | rfl | rfl | rfl | rfl | rfl | rfl
      · omega
      all_goals exact ⟨(hex_ne (by assumption)).1, (hex_ne (by assumption)).2.1⟩
  constructor
  · simp only [List.mem_append, not_or]
    exact ⟨⟨by decide, fun h => (hx _ h).1 rfl⟩, by decide⟩
  · simp only [List.mem_append, not_or]
    exact ⟨⟨by decide, fun h => (hx _ h).2 rfl⟩, by decide⟩

theorem isTag_open (st : Styles) (hc : ColorOk st.color) : ∀ s ∈ openTags st, IsTag s := by
  intro s hs
  have c1 : IsTag sU := ⟨[117], rfl, by decide, by decide⟩
  have c2 : IsTag sEm := ⟨[101, 109], rfl, by decide, by decide⟩
  have c3 : IsTag sStrong := ⟨[115, 116, 114, 111, 110, 103], rfl, by decide, by decide⟩
  simp only [openTags, List.mem_append] at hs
  rcases hs with ((hs | hs) | hs) | hs
  · split at hs
    · simp at hs
    · simp only [List.mem_singleton] at hs; rw [hs]; exact isTag_span _ hc
  · split at hs
    · simp only [List.mem_singleton] at hs; rw [hs]; exact c1
    · simp at hs
  · split at hs
    · simp only [List.mem_singleton] at hs; rw [hs]; exact c2
    · simp at hs
  · split at hs
    · simp only [List.mem_singleton] at hs; rw [hs]; exact c3
    · simp at hs

theorem isTag_close (st : Styles) : ∀ s ∈ closeTags st, IsTag s := by
  intro s hs
  have c1 : IsTag sUEnd := ⟨[47, 117], rfl, by decide, by decide⟩
  have c2 : IsTag sEmEnd := ⟨[47, 101, 109], rfl, by decide, by decide⟩
  have c3 : IsTag sStrongEnd := ⟨[47, 115, 116, 114, 111, 110, 103], rfl, by decide, by decide⟩
  have c4 : IsTag sSpanEnd := ⟨[47, 115, 112, 97, 110], rfl, by decide, by decide⟩
  simp only [closeTags, List.mem_append] at hs
  rcases hs with ((hs | hs) | hs) | hs
  · split at hs
    · simp only [List.mem_singleton] at hs; rw [hs]; exact c3
    · simp at hs
  · split at hs
    · simp only [List.mem_singleton] at hs; rw [hs]; exact c2
    · simp at hs
  · split at hs
    · simp only [List.mem_singleton] at hs; rw [hs]; exact c1
    · simp at hs
  · split at hs
    · simp at hs
    · simp only [List.mem_singleton] at hs; rw [hs]; exact c4

theorem replace_tags (ts : List Str) (h : ∀ s ∈ ts, IsTag s) (b : Str) :
    replaceRe tagAt 0 (ts.flatten ++ b) = replaceRe tagAt 0 b := by
  induction ts with
  | nil => rfl
  | cons s ts ih =>
    obtain ⟨a, h1, h2, h3⟩ := h s (by simp)
    rw [List.flatten_cons, h1]
    have := replace_tag a (ts.flatten ++ b) h3
    simp only [List.append_assoc, List.cons_append, List.nil_append] at this ⊢
    rw [this]
    exact ih (fun s hs => h s (by simp [hs]))

theorem findAll_tags (ts : List Str) (h : ∀ s ∈ ts, IsTag s) (b : Str) :
    findAllRe tagAt 0 (ts.flatten ++ b) = ts ++ findAllRe tagAt 0 b := by
  induction ts with
  | nil => rfl
  | cons s ts ih =>
    obtain ⟨a, h1, h2, h3⟩ := h s (by simp)
    rw [List.flatten_cons, h1]
    have := findAll_tag a (ts.flatten ++ b) h3
    simp only [List.append_assoc, List.cons_append, List.nil_append] at this ⊢
    rw [this, ih (fun s hs => h s (by simp [hs]))]

theorem tag_prefix {q a r : Str} (q2 : 62 ∉ q) (h3 : 62 ∉ a) (hpre : q ++ [62] <+: (a ++ [62]) ++ r) : q = a := by
  induction q generalizing a with
  | nil =>
    cases a with
    | nil => rfl
    | cons x a =>
      simp at hpre
      exact absurd (by simp [← hpre]) h3
  | cons y q ihq =>
    cases a with
    | nil =>
      simp at hpre
      exact absurd (by simp [hpre.1]) q2
    | cons x a =>
      simp at hpre h3 q2
      have := ihq q2.2 h3.2 (by simpa using hpre.2)
      rw [hpre.1, this]

/-- A tag occurs in a text with tags around exactly if it is one of the tags. -/
theorem contains_tags (p : Str) (hp : IsTag p) (ts : List Str) (h : ∀ s ∈ ts, IsTag s) (b : Str) :
    containsStr p (ts.flatten ++ b) = (ts.contains p || containsStr p b) := by
  obtain ⟨q, rfl, q1, q2⟩ := hp
  induction ts with
  | nil => simp
  | cons s ts ih =>
    obtain ⟨a, h1, h2, h3⟩ := h s (by simp)
    have ih := ih (fun s hs => h s (by simp [hs]))
    have e : (s :: ts).flatten ++ b = 60 :: ((a ++ [62]) ++ (ts.flatten ++ b)) := by
      rw [List.flatten_cons, h1]; simp
    rw [e, contains_head 60 (q ++ [62]) (a ++ [62]) _ (by simp [h2]), ih]
    have key : (q ++ [62]).isPrefixOf ((a ++ [62]) ++ (ts.flatten ++ b)) = decide (q = a) := by
      rw [Bool.eq_iff_iff, List.isPrefixOf_iff_prefix, decide_eq_true_eq]
      constructor
      · exact tag_prefix q2 h3
      · intro h0; rw [h0]; exact List.prefix_append _ _
    rw [key, List.contains_cons, h1]
    by_cases hqa : q = a
    · subst hqa; simp
    · have : ((60 :: (q ++ [62])) == (60 :: (a ++ [62]))) = false := by
        rw [beq_eq_false_iff_ne]
        intro h0
        simp at h0
        exact hqa h0
      rw [this]; simp [hqa]

/-! ### C47 -/

/-- C47.  For every non-empty text and every style whose colour is absent or of the form #RRGGBB (the
only ones the constructors let through), decoding what was encoded returns the same text and the
same styles. -/
theorem C47_html_roundtrip (T : HtmlTables) (text : Str) (st : Styles) (ht : text ≠ []) (hc : ColorOk st.color) :
    decodeHTML T (encodeHTML text st) = some (text, st) := by
  have hshape := encode_shape text st ht
  have ho := isTag_open st hc
  have hcl := isTag_close st
  have hesc : 60 ∉ escapeHTML text := fun h => (esc_chars text _ h).1 rfl
  have hstrip : stripHTMLTags T (encodeHTML text st) = text := by
    unfold stripHTMLTags
    rw [hshape, List.append_assoc, replace_tags _ ho, replace_text _ _ hesc]
    have := replace_tags _ hcl []
    simp only [List.append_nil] at this
    rw [this]
    simp only [replaceRe, List.append_nil]
    exact unescape_escape T text
  have hcont : ∀ p, IsTag p → containsStr p (encodeHTML text st) =
      ((openTags st).contains p || (closeTags st).contains p) := by
    intro p hp
    rw [hshape, List.append_assoc, contains_tags p hp _ ho]
    congr 1
    obtain ⟨q, hq, _, _⟩ := hp
    have h2 := contains_pass 60 (q ++ [62]) (escapeHTML text) ((closeTags st).flatten) hesc
    have h3 := contains_tags p ⟨q, hq, by assumption, by assumption⟩ _ hcl []
    simp only [List.append_nil] at h3
    rw [hq] at h3 ⊢
    rw [h2, h3]
    simp [containsStr]
  have t1 : IsTag sStrong := ⟨[115, 116, 114, 111, 110, 103], rfl, by decide, by decide⟩
  have t2 : IsTag sB := ⟨[98], rfl, by decide, by decide⟩
  have t3 : IsTag sEm := ⟨[101, 109], rfl, by decide, by decide⟩
  have t4 : IsTag sI := ⟨[105], rfl, by decide, by decide⟩
  have t5 : IsTag sU := ⟨[117], rfl, by decide, by decide⟩
  have hne : encodeHTML text st ≠ [] := by
    rw [hshape]
    intro h0
    have := List.append_eq_nil_iff.1 h0
    have := List.append_eq_nil_iff.1 this.1
    exact esc_ne ht this.2
  have hcolor : findRe colorAt (encodeHTML text st) = if st.color = [] then none else some st.color := by
    obtain ⟨b, i, u, c⟩ := st
    rcases hc with hc | ⟨a, b', d, e, f, g, hc, h1, h2, h3, h4, h5, h6⟩
    · simp only [] at hc
      subst hc
      rw [if_pos rfl]
      apply findColor_none
      rw [hshape]
      have hq : 34 ∉ escapeHTML text := fun h => (esc_chars text _ h).2.2.1 rfl
      simp only [List.mem_append, not_or]
      refine ⟨⟨?_, hq⟩, ?_⟩
      · cases b <;> cases i <;> cases u <;> simp [openTags, sU, sEm, sStrong]
      · cases b <;> cases i <;> cases u <;> simp [closeTags, sUEnd, sEmEnd, sStrongEnd]
    · simp only [] at hc
      subst hc
      rw [if_neg (by simp)]
      have ee : encodeHTML text ⟨b, i, u, [35, a, b', d, e, f, g]⟩ = sSpan1 ++ [35, a, b', d, e, f, g] ++ sSpan2 ++
          (((if u then [sU] else []) ++ (if i then [sEm] else []) ++ (if b then [sStrong] else [])).flatten ++
            escapeHTML text ++ (closeTags ⟨b, i, u, [35, a, b', d, e, f, g]⟩).flatten) := by
        rw [hshape]; simp [openTags]
      rw [ee]
      exact findColor_span a b' d e f g _ h1 h2 h3 h4 h5 h6
  have spanne : ∀ p ∈ [sStrong, sB, sEm, sI, sU], ((sSpan1 ++ st.color ++ sSpan2) == p) = false := by
    intro p hp
    rw [beq_eq_false_iff_ne]
    intro h0
    simp only [List.mem_cons, List.not_mem_nil, or_false] at hp
    rcases hp with rfl | rfl | rfl | rfl | rfl <;>
      simp [sSpan1, sStrong, sB, sEm, sI, sU] at h0
  have hbold : (containsStr sStrong (encodeHTML text st) || containsStr sB (encodeHTML text st)) = st.bold := by
    rw [hcont _ t1, hcont _ t2]
    have s1 := spanne sStrong (by simp)
    have s2 := spanne sB (by simp)
    have s1' : (sStrong == (sSpan1 ++ st.color ++ sSpan2)) = false := by
      rw [beq_eq_false_iff_ne] at s1 ⊢; exact fun h => s1 h.symm
    have s2' : (sB == (sSpan1 ++ st.color ++ sSpan2)) = false := by
      rw [beq_eq_false_iff_ne] at s2 ⊢; exact fun h => s2 h.symm
    unfold openTags closeTags
    by_cases hcc : st.color = [] <;> cases st.bold <;> cases st.italic <;> cases st.underline <;>
      simp only [hcc, if_true, if_false, Bool.false_eq_true, List.nil_append, List.append_nil, List.cons_append,
        List.contains_cons, List.contains_nil, s1', s2', Bool.false_or] <;> decide
  have hital : (containsStr sEm (encodeHTML text st) || containsStr sI (encodeHTML text st)) = st.italic := by
    rw [hcont _ t3, hcont _ t4]
    have s1 := spanne sEm (by simp)
    have s2 := spanne sI (by simp)
    have s1' : (sEm == (sSpan1 ++ st.color ++ sSpan2)) = false := by
      rw [beq_eq_false_iff_ne] at s1 ⊢; exact fun h => s1 h.symm
    have s2' : (sI == (sSpan1 ++ st.color ++ sSpan2)) = false := by
      rw [beq_eq_false_iff_ne] at s2 ⊢; exact fun h => s2 h.symm
    unfold openTags closeTags
    by_cases hcc : st.color = [] <;> cases st.bold <;> cases st.italic <;> cases st.underline <;>
      simp only [hcc, if_true, if_false, Bool.false_eq_true, List.nil_append, List.append_nil, List.cons_append,
        List.contains_cons, List.contains_nil, s1', s2', Bool.false_or] <;> decide
  have hund : containsStr sU (encodeHTML text st) = st.underline := by
    rw [hcont _ t5]
    have s1 := spanne sU (by simp)
    have s1' : (sU == (sSpan1 ++ st.color ++ sSpan2)) = false := by
      rw [beq_eq_false_iff_ne] at s1 ⊢; exact fun h => s1 h.symm
    unfold openTags closeTags
    by_cases hcc : st.color = [] <;> cases st.bold <;> cases st.italic <;> cases st.underline <;>
      simp only [hcc, if_true, if_false, Bool.false_eq_true, List.nil_append, List.append_nil, List.cons_append,
        List.contains_cons, List.contains_nil, s1', Bool.false_or] <;> decide
  unfold decodeHTML
  rw [if_neg hne, hcolor, hstrip, hbold, hital, hund]
  by_cases hcc : st.color = []
  · rw [if_pos hcc]
    obtain ⟨b, i, u, c⟩ := st
    simp only [] at hcc ⊢
    rw [hcc]
  · rw [if_neg hcc]
    have hv : validColor st.color = true := by
      rw [validColor_iff]
      rcases hc with hc | hc
      · exact absurd hc hcc
      · exact hc
    simp [Styles.withColor, hcc, hv]

/-- C47 (no injection).  Whatever the text, the tags in the encoder's output (as any reader of the form
"<...>" sees them, including the codec's own) are exactly those of the styles: nothing in the text
becomes markup, and outside the tags no angle bracket or quotation mark remains. -/
theorem C47_no_injection (text : Str) (st : Styles) (ht : text ≠ []) (hc : ColorOk st.color) :
    findAllRe tagAt 0 (encodeHTML text st) = openTags st ++ closeTags st ∧
    (∀ x ∈ replaceRe tagAt 0 (encodeHTML text st), x ≠ 60 ∧ x ≠ 62 ∧ x ≠ 34 ∧ x ≠ 39) := by
  have hshape := encode_shape text st ht
  have ho := isTag_open st hc
  have hcl := isTag_close st
  have hesc : 60 ∉ escapeHTML text := fun h => (esc_chars text _ h).1 rfl
  have h3 := findAll_tags _ hcl []
  have h4 := replace_tags _ hcl []
  simp only [List.append_nil] at h3 h4
  constructor
  · rw [hshape, List.append_assoc, findAll_tags _ ho, findAll_text _ _ hesc, h3]
    simp [findAllRe]
  · rw [hshape, List.append_assoc, replace_tags _ ho, replace_text _ _ hesc, h4]
    simp only [replaceRe, List.append_nil]
    exact esc_chars text

/-- C47: the styles that the constructors let through are those of the theorem. -/
theorem C47_constructed_colors (s s' : Styles) (c : Str) (h : s.withColor c = some s') : ColorOk s'.color := by
  unfold Styles.withColor at h
  by_cases hc : c = []
  · simp [hc] at h; subst h; exact Or.inl rfl
  · simp only [ne_eq, hc, not_false_eq_true, if_true] at h
    by_cases hv : validColor c = true
    · simp [hv] at h; subst h; exact Or.inr ((validColor_iff c).1 hv)
    · simp [hv] at h

/-- Tables with just the entries the theorem needs. -/
def miniTables : HtmlTables where
  named s := if s = [97, 109, 112, 59] then some [38] else if s = [108, 116, 59] then some [60] else
    if s = [103, 116, 59] then some [62] else none
  numeric n := [n]
  amp := by decide
  lt := by decide
  gt := by decide
  ascii := by intros; rfl

-- the text  <b>&lt;  in bold, red
example : ColorOk [35, 70, 70, 48, 48, 48, 48] := Or.inr ⟨70, 70, 48, 48, 48, 48, rfl, by decide⟩
example : decodeHTML miniTables (encodeHTML [60, 98, 62, 38, 108, 116, 59] ⟨true, false, false, [35, 70, 70, 48, 48, 48, 48]⟩)
    = some ([60, 98, 62, 38, 108, 116, 59], ⟨true, false, false, [35, 70, 70, 48, 48, 48, 48]⟩) := by decide +kernel
-- a colour that did not go through the constructors can inject a tag
example : findAllRe tagAt 0 (encodeHTML [97] ⟨false, false, false, [34, 62, 60, 98, 62]⟩) ≠
    openTags ⟨false, false, false, [34, 62, 60, 98, 62]⟩ ++ closeTags ⟨false, false, false, [34, 62, 60, 98, 62]⟩ := by decide

end Phoenix.Clip
