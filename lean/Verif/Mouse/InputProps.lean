import Verif.Util
import Verif.Mouse.Props
/-
C151: exactly which byte strings are SGR/URxvt mouse reports.  C152: Reset.  Further clauses of
C33 and C88.
-/
set_option linter.unusedVariables false
set_option linter.unusedSimpArgs false
namespace Phoenix.Mouse

/-! ## Specification: decimal integers as text -/

/-- The number a list of digit characters denotes, most significant first. -/
def digitsValue : List Nat → Nat
  | [] => 0
  | d :: ds => (d - 48) * 10 ^ ds.length + digitsValue ds

/-- `t` is a decimal integer with value `n`: an optional sign and at least one digit. -/
def IntText (t : List Nat) (n : Int) : Prop :=
  ∃ sign ds, t = sign ++ ds ∧ ds ≠ [] ∧ (∀ d ∈ ds, 48 ≤ d ∧ d ≤ 57) ∧
    ((sign = [45] ∧ n = -(digitsValue ds : Int)) ∨
     ((sign = [] ∨ sign = [43]) ∧ n = (digitsValue ds : Int)))

theorem foldl_value (ds : List Nat) : ∀ a : Nat,
    ds.foldl (fun a b => a * 10 + (b - 48)) a = a * 10 ^ ds.length + digitsValue ds := by
  induction ds with
  | nil => intro a; simp [digitsValue]
  | cons d ds ih =>
    intro a
    simp only [List.foldl_cons, ih, digitsValue, List.length_cons, Nat.pow_succ]
    rw [Nat.add_mul, Nat.mul_assoc, Nat.mul_comm 10]
    omega

theorem parseNat_iff (l : List Nat) (n : Nat) :
    Dec.parseNat l = some n ↔ l ≠ [] ∧ (∀ d ∈ l, 48 ≤ d ∧ d ≤ 57) ∧ n = digitsValue l := by
  unfold Dec.parseNat
  have hall : l.all Dec.isDigit = true ↔ ∀ d ∈ l, 48 ≤ d ∧ d ≤ 57 := by
    rw [List.all_eq_true]
    simp [Dec.isDigit]
  by_cases h1 : l = []
  · subst h1; simp
  · by_cases h2 : l.all Dec.isDigit = true
    · have h3 := hall.1 h2
      rw [if_neg (by simp [h1, h2]), foldl_value]
      simp only [Nat.zero_mul, Nat.zero_add, Option.some.injEq]
      constructor
      · intro h; exact ⟨h1, h3, h.symm⟩
      · intro h; exact h.2.2.symm
    · rw [if_pos (by simp [h1, h2])]
      constructor
      · intro h; cases h
      · intro h; exact absurd (hall.2 h.2.1) h2

theorem atoi_iff (l : List Nat) (n : Int) : Dec.atoi l = some n ↔ IntText l n := by
  unfold Dec.atoi
  constructor
  · intro h
    split at h
    · next hh =>
      cases l with
      | nil => cases hh
      | cons a t =>
        simp only [List.head?_cons, Option.some.injEq] at hh
        subst hh
        simp only [List.tail_cons, Option.map_eq_some_iff] at h
        obtain ⟨m, hm, rfl⟩ := h
        obtain ⟨a1, a2, a3⟩ := (parseNat_iff _ _).1 hm
        exact ⟨[45], t, rfl, a1, a2, Or.inl ⟨rfl, by rw [a3]⟩⟩
    · split at h
      · next hh =>
        cases l with
        | nil => cases hh
        | cons a t =>
          simp only [List.head?_cons, Option.some.injEq] at hh
          subst hh
          simp only [List.tail_cons, Option.map_eq_some_iff] at h
          obtain ⟨m, hm, rfl⟩ := h
          obtain ⟨a1, a2, a3⟩ := (parseNat_iff _ _).1 hm
          exact ⟨[43], t, rfl, a1, a2, Or.inr ⟨Or.inr rfl, by rw [a3]⟩⟩
      · simp only [Option.map_eq_some_iff] at h
        obtain ⟨m, hm, rfl⟩ := h
        obtain ⟨a1, a2, a3⟩ := (parseNat_iff _ _).1 hm
        exact ⟨[], l, rfl, a1, a2, Or.inr ⟨Or.inl rfl, by rw [a3]⟩⟩
  · rintro ⟨sign, ds, rfl, h1, h2, h3⟩
    have hp : Dec.parseNat ds = some (digitsValue ds) := (parseNat_iff _ _).2 ⟨h1, h2, rfl⟩
    rcases h3 with ⟨rfl, rfl⟩ | ⟨rfl | rfl, rfl⟩
    · simp [hp]
    · cases ds with
      | nil => exact absurd rfl h1
      | cons d t =>
        have hd := h2 d (List.mem_cons_self)
        rw [if_neg (by simp; omega), if_neg (by simp; omega)]
        simp [hp]
    · simp [hp]

theorem intText_no (c : Nat) (hc : c < 48 ∨ 57 < c) (h1 : c ≠ 45) (h2 : c ≠ 43) {t : List Nat}
    {n : Int} (h : IntText t n) : c ∉ t := by
  obtain ⟨sign, ds, rfl, _, hd, hs⟩ := h
  rw [List.mem_append]
  rintro (hm | hm)
  · rcases hs with ⟨rfl, _⟩ | ⟨rfl | rfl, _⟩ <;> simp_all
  · have := hd _ hm; omega

theorem split_three (l a b c : List Nat) :
    Dec.split 59 l = [a, b, c] ↔ l = a ++ 59 :: (b ++ 59 :: c) ∧ 59 ∉ a ∧ 59 ∉ b ∧ 59 ∉ c := by
  have key : ∀ l ps, Dec.split 59 l = ps → (∀ p ∈ ps, 59 ∉ p) ∧ ps ≠ [] ∧
      l = (ps.intersperse [59]).flatten := by
    intro l
    induction l with
    | nil => rintro ps rfl; simp [Dec.split]
    | cons x t ih =>
      rintro ps rfl
      obtain ⟨i1, i2, i3⟩ := ih _ rfl
      unfold Dec.split
      by_cases hx : x = 59
      · rw [if_pos hx]
        refine ⟨?_, by simp, ?_⟩
        · intro p hp; rcases List.mem_cons.1 hp with rfl | hp
          · simp
          · exact i1 _ hp
        · generalize hs : Dec.split 59 t = q at *
          cases q with
          | nil => exact absurd rfl i2
          | cons p ps => simp [List.intersperse, hx] at *; exact i3
      · rw [if_neg hx]
        generalize hs : Dec.split 59 t = q at *
        cases q with
        | nil => exact absurd rfl i2
        | cons p ps =>
          refine ⟨?_, by simp, ?_⟩
          · intro r hr; rcases List.mem_cons.1 hr with rfl | hr
            · have := i1 p (by simp); simp [this]; exact fun h => hx h.symm
            · exact i1 _ (by simp [hr])
          · cases ps with
            | nil => simp [List.intersperse] at *; exact i3
            | cons p2 ps => simp [List.intersperse] at *; exact i3
  constructor
  · intro h
    obtain ⟨k1, _, k3⟩ := key _ _ h
    refine ⟨by simpa [List.intersperse] using k3, k1 a (by simp), k1 b (by simp), k1 c (by simp)⟩
  · rintro ⟨rfl, h1, h2, h3⟩
    rw [Dec.split_append h1, Dec.split_append h2, Dec.split_none h3]

theorem threeInts_iff (l : List Nat) (code : Int) (p : Pos) :
    threeInts l = some (code, p) ↔ ∃ a b c x y, l = a ++ 59 :: (b ++ 59 :: c) ∧ IntText a code ∧
      IntText b x ∧ IntText c y ∧ p = ⟨x - 1, y - 1⟩ := by
  unfold threeInts
  simp only []
  constructor
  · intro h
    split at h
    · next hl =>
      match hs : Dec.split 59 l, hl with
      | [a, b, c], _ =>
        rw [hs] at h
        simp only [List.getD_cons_zero, List.getD_cons_succ, Option.bind_eq_some_iff,
          Option.map_eq_some_iff, Prod.mk.injEq] at h
        obtain ⟨n, hn, x, hx, y, hy, rfl, rfl⟩ := h
        exact ⟨a, b, c, x, y, ((split_three _ _ _ _).1 hs).1, (atoi_iff _ _).1 hn,
          (atoi_iff _ _).1 hx, (atoi_iff _ _).1 hy, rfl⟩
    · cases h
  · rintro ⟨a, b, c, x, y, rfl, ha, hb, hc, rfl⟩
    have no : ∀ {t : List Nat} {n : Int}, IntText t n → 59 ∉ t := fun h =>
      intText_no 59 (by omega) (by omega) (by omega) h
    rw [(split_three _ a b c).2 ⟨rfl, no ha, no hb, no hc⟩]
    simp [(atoi_iff _ _).2 ha, (atoi_iff _ _).2 hb, (atoi_iff _ _).2 hc]

/-! ## C151: which byte strings are reports -/

/-- The event an extended report stands for: code, one-based column and row, and whether it is
a press.  What button and modifiers a code names is the subject of C27 and C87. -/
def reportOf (now code x y : Int) (down : Bool) (e : Event) : Prop :=
  e.pos = ⟨x - 1, y - 1⟩ ∧ e.time = now ∧ e.button = (decodeButton code).1 ∧
    e.mods = (decodeButton code).2 ∧
    (e.button = .wheelUp ∨ e.button = .wheelDown → e.type = .scroll) ∧
    (e.button ≠ .wheelUp → e.button ≠ .wheelDown → e.type = if down then .press else .release)

theorem mkReport_iff (now code : Int) (x y : Int) (down : Bool) (e : Event) :
    e = mkReport now down code ⟨x - 1, y - 1⟩ ↔ reportOf now code x y down e := by
  unfold mkReport reportOf reportType
  cases e with
  | mk t b p m tm =>
    generalize decodeButton code = bm
    obtain ⟨b', m'⟩ := bm
    simp only [Event.mk.injEq]
    constructor
    · rintro ⟨rfl, rfl, rfl, rfl, rfl⟩
      cases b <;> simp [Button.isWheel]
    · rintro ⟨rfl, rfl, rfl, rfl, h1, h2⟩
      refine ⟨?_, rfl, rfl, rfl, rfl⟩
      cases b <;> simp_all [Button.isWheel]

/-- What one would expect of SGR reports: `ESC [ < code ; x ; y` followed by `M` or `m` and
nothing else. -/
def C151_sgr_statement : Prop :=
  ∀ (now : Int) (l : List Nat) (down : Bool) (e : Event),
    parseRaw now ([27, 91, 60] ++ l ++ [if down then 77 else 109]) = some e ↔
      ∃ a b c code x y, l = a ++ 59 :: (b ++ 59 :: c) ∧ IntText a code ∧ IntText b x ∧ IntText c y ∧
        reportOf now code x y down e

theorem parse_sgr_body (now : Int) (l : List Nat) (down : Bool) :
    parseRaw now ([27, 91, 60] ++ l ++ [if down then 77 else 109])
      = (threeInts (if down then trimSuffix 109 l else l)).map
          (fun r => mkReport now down r.1 r.2) := by
  have h1 : trimPrefix 91 (trimPrefix 27 ([27, 91, 60] ++ l ++ [if down then 77 else 109]))
      = 60 :: (l ++ [if down then 77 else 109]) := by
    simp [trimPrefix]
  unfold parseRaw
  rw [h1]
  simp only []
  rw [if_pos (show (60 :: (l ++ [if down then 77 else 109])).head? = some 60 from rfl)]
  unfold parseSGR sgrParse
  cases down
  · have e1 : (60 :: (l ++ [109])).getLast? = some 109 := by
      rw [show 60 :: (l ++ [109]) = (60 :: l) ++ [109] from rfl]; exact last_concat _ _
    have e2 : trimSuffix 77 (60 :: (l ++ [109])) = 60 :: (l ++ [109]) := by
      unfold trimSuffix; rw [e1]; rfl
    have e3 : trimSuffix 109 (60 :: (l ++ [109])) = 60 :: l := by
      rw [show 60 :: (l ++ [109]) = (60 :: l) ++ [109] from rfl]; exact trimSuffix_append _ _
    simp only [Bool.false_eq_true, if_false]
    rw [e2, e3, e1]
    simp [trimPrefix]
  · have e1 : (60 :: (l ++ [77])).getLast? = some 77 := by
      rw [show 60 :: (l ++ [77]) = (60 :: l) ++ [77] from rfl]; exact last_concat _ _
    have e2 : trimSuffix 77 (60 :: (l ++ [77])) = 60 :: l := by
      rw [show 60 :: (l ++ [77]) = (60 :: l) ++ [77] from rfl]; exact trimSuffix_append _ _
    simp only [if_true]
    rw [e1, e2]
    have e3 : trimSuffix 109 (60 :: l) = 60 :: trimSuffix 109 l := by
      unfold trimSuffix
      cases l with
      | nil => rfl
      | cons a t =>
        rw [List.getLast?_cons_cons]
        split <;> rfl
    rw [e3]
    simp [trimPrefix]

/-- C151 (SGR): `ESC [ < l M` (or `m`) is accepted exactly when `l` is three decimal integers
separated by semicolons, and then the event is the one they stand for; everything else is an
error.  Missing: a press report with a stray `m` before the final `M` is accepted too, excluded
by the hypothesis. -/
theorem C151_sgr_partial (now : Int) (l : List Nat) (down : Bool) (e : Event)
    (hm : down = true → l.getLast? ≠ some 109) :
    parseRaw now ([27, 91, 60] ++ l ++ [if down then 77 else 109]) = some e ↔
      ∃ a b c code x y, l = a ++ 59 :: (b ++ 59 :: c) ∧ IntText a code ∧ IntText b x ∧ IntText c y ∧
        reportOf now code x y down e := by
  have hl : (if down then trimSuffix 109 l else l) = l := by
    cases down
    · rfl
    · simp only [if_true, trimSuffix]
      rw [if_neg (hm rfl)]
  rw [parse_sgr_body, hl]
  constructor
  · intro h
    obtain ⟨⟨code, p⟩, h1, h2⟩ := Option.map_eq_some_iff.1 h
    obtain ⟨a, b, c, x, y, k1, k2, k3, k4, rfl⟩ := (threeInts_iff _ _ _).1 h1
    exact ⟨a, b, c, code, x, y, k1, k2, k3, k4, (mkReport_iff _ _ _ _ _ _).1 h2.symm⟩
  · rintro ⟨a, b, c, code, x, y, k1, k2, k3, k4, k5⟩
    have := (threeInts_iff l code ⟨x - 1, y - 1⟩).2 ⟨a, b, c, x, y, k1, k2, k3, k4, rfl⟩
    rw [this, (mkReport_iff _ _ _ _ _ _).2 k5]
    rfl

-- the hypothesis holds for every body ending in a digit; "<0;5;7M" is accepted, "<0;5M" is not
example : (parseRaw 0 ([27, 91, 60] ++ [48, 59, 53, 59, 55] ++ [77])).isSome = true ∧
    (parseRaw 0 ([27, 91, 60] ++ [48, 59, 53] ++ [77])).isSome = false ∧
    (parseRaw 0 ([27, 91, 60] ++ [48, 59, 53, 59, 55, 59, 49] ++ [77])).isSome = false := by decide

/-- C151: the full statement fails: `ESC [ < 0;5;7mM` is accepted as a press. -/
theorem C151_sgr_refuted : ¬ C151_sgr_statement := by
  intro h
  have hs : (parseRaw 0 ([27, 91, 60] ++ [48, 59, 53, 59, 55, 109] ++ [if true then 77 else 109])).isSome = true := by
    decide
  obtain ⟨e, he⟩ := Option.isSome_iff_exists.1 hs
  obtain ⟨a, b, c, code, x, y, h1, h2, h3, h4, _⟩ := (h 0 _ true e).1 he
  have hm : (109 : Nat) ∈ a ++ 59 :: (b ++ 59 :: c) := by rw [← h1]; decide
  have no : ∀ {t : List Nat} {n : Int}, IntText t n → 109 ∉ t := fun h =>
    intText_no 109 (by omega) (by omega) (by omega) h
  simp [no h2, no h3, no h4] at hm

/-- C151 (URxvt): `ESC [ l M` with a semicolon in `l`, not starting an SGR or X10 report, is
accepted exactly when `l` is three decimal integers separated by semicolons. -/
theorem C151_urxvt (now : Int) (l : List Nat) (e : Event)
    (h1 : l.head? ≠ some 60) (h2 : l.head? ≠ some 77) (h3 : 59 ∈ l) :
    parseRaw now ([27, 91] ++ l ++ [77]) = some e ↔
      ∃ a b c code x y, l = a ++ 59 :: (b ++ 59 :: c) ∧ IntText a code ∧ IntText b x ∧ IntText c y ∧
        reportOf now code x y true e := by
  have hne : l ≠ [] := by rintro rfl; cases h3
  have hp : trimPrefix 91 (trimPrefix 27 ([27, 91] ++ l ++ [77])) = l ++ [77] := by simp [trimPrefix]
  have hh : ∀ k, l.head? ≠ some k → (l ++ [77]).head? ≠ some k := by
    intro k hk
    cases l with
    | nil => exact absurd rfl hne
    | cons a t => simpa using hk
  have hparse : parseRaw now ([27, 91] ++ l ++ [77])
      = (threeInts l).map (fun r => mkReport now true r.1 r.2) := by
    unfold parseRaw
    rw [hp]
    simp only []
    rw [if_neg (hh 60 h1), if_neg (hh 77 h2), if_pos (by simp [h3])]
    unfold parseURxvt urxvtParse
    rw [trimSuffix_append]
  rw [hparse]
  constructor
  · intro h
    obtain ⟨⟨code, p⟩, h1, h2⟩ := Option.map_eq_some_iff.1 h
    obtain ⟨a, b, c, x, y, k1, k2, k3, k4, rfl⟩ := (threeInts_iff _ _ _).1 h1
    exact ⟨a, b, c, code, x, y, k1, k2, k3, k4, (mkReport_iff _ _ _ _ _ _).1 h2.symm⟩
  · rintro ⟨a, b, c, code, x, y, k1, k2, k3, k4, k5⟩
    have := (threeInts_iff l code ⟨x - 1, y - 1⟩).2 ⟨a, b, c, x, y, k1, k2, k3, k4, rfl⟩
    rw [this, (mkReport_iff _ _ _ _ _ _).2 k5]
    rfl

example : (parseRaw 0 ([27, 91] ++ [51, 50, 59, 53, 59, 55] ++ [77])).isSome = true := by decide

/-- C151 (X10): `ESC [ M l` is accepted exactly when three bytes follow, whatever they are. -/
theorem C151_x10 (now : Int) (l : List Nat) :
    (parseRaw now ([27, 91, 77] ++ l)).isSome = true ↔ l.length = 3 := by
  have hp : trimPrefix 91 (trimPrefix 27 ([27, 91, 77] ++ l)) = 77 :: l := by simp [trimPrefix]
  unfold parseRaw
  rw [hp]
  simp only []
  rw [if_neg (show ¬ (77 :: l).head? = some 60 by simp), if_pos (show (77 :: l).head? = some 77 from rfl)]
  unfold parseX10 x10Parse
  have : trimPrefix 77 (77 :: l) = l := by simp [trimPrefix]
  rw [this]
  simp only []
  by_cases h : l.length = 3
  · rw [if_neg (by omega), if_pos h]; simp [h]
  · rw [if_pos (by omega)]; simp [h]

/-- C151: an input that is not a mouse report changes nothing: the next reports are decoded and
counted as if it had not been there. -/
theorem C151_garbage_ignored (p : Processor) (now : Int) (s : List Nat) (h : parseRaw now s = none)
    (later : List (Int × List Nat)) :
    (feed p ((now, s) :: later)).1 = none :: (feed p later).1 ∧
      (feed p ((now, s) :: later)).2 = (feed p later).2 := by
  simp [feed, parseSequence, h]

example : parseRaw 0 [27, 91, 65] = none := by decide

/-! ## C152: Reset -/

theorem process_config (p : Processor) (e : Event) :
    (p.process e).2.clicks.timeout = p.clicks.timeout ∧
    (p.process e).2.clicks.tolerance = p.clicks.tolerance ∧
    (p.process e).2.drag.threshold = p.drag.threshold := by
  unfold Processor.process Processor.release Processor.motion Drag.press Drag.begin Drag.motion
    Drag.release Drag.update Detector.detect
  simp only []
  (repeat' split) <;> simp

theorem run_config (es : List Event) : ∀ p : Processor,
    (p.run es).2.clicks.timeout = p.clicks.timeout ∧
    (p.run es).2.clicks.tolerance = p.clicks.tolerance ∧
    (p.run es).2.drag.threshold = p.drag.threshold := by
  induction es with
  | nil => intro p; exact ⟨rfl, rfl, rfl⟩
  | cons e es ih =>
    intro p
    simp only [Processor.run]
    obtain ⟨a, b, c⟩ := ih (p.process e).2
    obtain ⟨a', b', c'⟩ := process_config p e
    exact ⟨a.trans a', b.trans b', c.trans c'⟩

/-- C152.  After Reset, whatever happened before, the processor answers every further sequence
of events exactly as a newly made one with the same configuration, and no drag is in progress. -/
theorem C152_reset_forgets (timeout tolerance thr : Int) (before after : List Event) :
    (((Processor.withConfig timeout tolerance thr).run before).2.reset.run after).1
      = ((Processor.withConfig timeout tolerance thr).run after).1 ∧
    (∀ k, (((Processor.withConfig timeout tolerance thr).run before).2.reset.run (after.take k)).2.isDragging
      = ((Processor.withConfig timeout tolerance thr).run (after.take k)).2.isDragging) ∧
    ((Processor.withConfig timeout tolerance thr).run before).2.reset.isDragging = false := by
  obtain ⟨h1, h2, h3⟩ := run_config before (Processor.withConfig timeout tolerance thr)
  have key : ((Processor.withConfig timeout tolerance thr).run before).2.reset
      = Processor.withConfig timeout tolerance thr := by
    generalize ((Processor.withConfig timeout tolerance thr).run before).2 = q at *
    obtain ⟨⟨l, c, t, to⟩, ⟨a, s, cu, b, m, th⟩⟩ := q
    simp only at h1 h2 h3
    subst h1 h2 h3
    rfl
  rw [key]
  exact ⟨rfl, fun _ => rfl, rfl⟩

-- a press and a release, then Reset: the next release is again a first click
example : (((Processor.withConfig 500 1 2).run
      [⟨.press, .left, ⟨3, 3⟩, ⟨false, false, false⟩, 0⟩, ⟨.release, .left, ⟨3, 3⟩, ⟨false, false, false⟩, 1⟩]).2.reset.run
      [⟨.release, .left, ⟨3, 3⟩, ⟨false, false, false⟩, 2⟩]).1
    = [[⟨.click, .left, ⟨3, 3⟩, ⟨false, false, false⟩, 2⟩, ⟨.release, .left, ⟨3, 3⟩, ⟨false, false, false⟩, 2⟩]] := by
  decide

/-- C152: a configuration value that is not usable is replaced by the default (500 ms, one cell,
two cells), every other one is used as given. -/
theorem C152_config (timeout tolerance thr : Int) :
    let p := Processor.withConfig timeout tolerance thr
    (0 < timeout → p.clicks.timeout = timeout) ∧ (timeout ≤ 0 → p.clicks.timeout = 500000000) ∧
    (0 ≤ tolerance → p.clicks.tolerance = tolerance) ∧ (tolerance < 0 → p.clicks.tolerance = 1) ∧
    (0 < thr → p.drag.threshold = thr) ∧ (thr ≤ 0 → p.drag.threshold = 2) := by
  simp only [Processor.withConfig, Detector.new, Drag.new]
  refine ⟨?_, ?_, ?_, ?_, ?_, ?_⟩ <;> intro h <;> split <;> omega

/-- C152: after the hover tracker's Reset nothing is hovered, and the next update answers as a
new tracker does. -/
theorem C152_hover_reset (p : Pos) (areas : List Area) :
    Hover.new.isHovering = false ∧
    ((Hover.new.step p areas).1 = .motion ↔ hoveredId p areas = "") ∧
    ((Hover.new.step p areas).1 = .hoverEnter ↔ hoveredId p areas ≠ "") := by
  refine ⟨rfl, ?_, ?_⟩ <;> unfold Hover.step <;> simp only [] <;>
    rw [show Hover.new.isHovering = false from rfl] <;> by_cases h : hoveredId p areas = "" <;> simp [h]

/-! ## Further clauses -/

/-- menu_positioner.go:96-108 WouldOverflow. -/
def wouldOverflow (p : Pos) (mw mh sw sh : Int) : Bool × Bool :=
  (decide (p.x + mw > sw), decide (p.y + mh > sh))

/-- menu_positioner.go:111-116 FitsOnScreen. -/
def fitsOnScreen (mw mh sw sh : Int) : Bool := decide (mw ≤ sw) && decide (mh ≤ sh)

/-- C33: FitsOnScreen says exactly whether some position on the screen avoids overflow, and then
the position computed for any cursor does. -/
theorem C33_fits (mw mh sw sh : Int) (hw : 0 ≤ mw) (hh : 0 ≤ mh) (hs : 0 ≤ sw) (ht : 0 ≤ sh) :
    (fitsOnScreen mw mh sw sh = true ↔
      ∃ p : Pos, 0 ≤ p.x ∧ 0 ≤ p.y ∧ wouldOverflow p mw mh sw sh = (false, false)) ∧
    (fitsOnScreen mw mh sw sh = true → ∀ c : Pos,
      wouldOverflow (menuPosition c mw mh sw sh) mw mh sw sh = (false, false)) := by
  have aux : fitsOnScreen mw mh sw sh = true ↔ mw ≤ sw ∧ mh ≤ sh := by simp [fitsOnScreen]
  have ov : ∀ p : Pos, wouldOverflow p mw mh sw sh = (false, false) ↔ p.x + mw ≤ sw ∧ p.y + mh ≤ sh := by
    intro p; simp [wouldOverflow]
  rw [aux]
  refine ⟨⟨fun h => ⟨⟨0, 0⟩, by simp, by simp, (ov _).2 (by simpa using h)⟩, ?_⟩, ?_⟩
  · rintro ⟨p, h1, h2, h3⟩
    have := (ov p).1 h3
    omega
  · intro h c
    rw [ov]
    simp only [menuPosition]
    rw [if_neg (show ¬ mw < 0 by omega), if_neg (show ¬ mh < 0 by omega),
      if_neg (show ¬ sw < 0 by omega), if_neg (show ¬ sh < 0 by omega),
      if_neg (show ¬ (mw > sw ∨ mh > sh) by omega)]
    constructor <;> simp only [] <;> (repeat' split) <;> omega

/-- C88: a box made with a negative width or height is empty: it contains no position; otherwise
it contains exactly the w*h cells from its corner. -/
theorem C88_new (x y w h : Int) (p : Pos) :
    (Box.new x y w h).contains p = true ↔
      x ≤ p.x ∧ p.x < x + w ∧ y ≤ p.y ∧ p.y < y + h := by
  rw [C88_contains]
  unfold Cell Box.new
  simp only []
  (repeat' split) <;> omega

/-- C88: the sizes of a box are never negative; non-negative sizes are kept. -/
theorem C88_new_size (x y w h : Int) : (Box.new x y w h).w = max 0 w ∧ (Box.new x y w h).h = max 0 h ∧
    (Box.new x y w h).x = x ∧ (Box.new x y w h).y = y := by
  unfold Box.new
  refine ⟨?_, ?_, rfl, rfl⟩ <;> simp only [] <;> split <;> omega

/-- C32: while the pointer is over an area the hover state names this area and holds the pointer
position; when the pointer leaves, the state holds the position where it left and names no area. -/
theorem C32_state (h : Hover) (p : Pos) (areas : List Area) :
    (hoveredId p areas ≠ "" → (h.step p areas).2.pos = p ∧ (h.step p areas).2.id = hoveredId p areas ∧
      (h.step p areas).2.isHovering = true) ∧
    (hoveredId p areas = "" → h.isHovering = true → (h.step p areas).2.pos = p ∧ (h.step p areas).2.isHovering = false) ∧
    (hoveredId p areas = "" → h.isHovering = false → (h.step p areas).2 = h) := by
  unfold Hover.step
  refine ⟨fun hi => ?_, fun hi hh => ?_, fun hi hh => ?_⟩
  · simp only [hi, if_false]
    cases hv : h.isHovering with
    | false => simp [Hover.enter, Hover.isHovering, hi]
    | true =>
      simp only [Bool.not_true, Bool.false_eq_true, if_false]
      by_cases he : hoveredId p areas = h.id
      · have ha : h.active = true := by
          unfold Hover.isHovering at hv; simp only [Bool.and_eq_true] at hv; exact hv.1
        simp [he, Hover.move, ha, Hover.isHovering]
        exact he ▸ hi
      · simp [he, Hover.enter, Hover.isHovering, hi]
  · have ha : h.active = true := by
      unfold Hover.isHovering at hh; simp only [Bool.and_eq_true] at hh; exact hh.1
    simp only [hi, if_true, hh, Hover.leave, ha]
    simp [Hover.isHovering]
  · simp [hi, hh]

example : hoveredId ⟨3, 1⟩ [⟨"a", ⟨0, 0, 5, 5⟩⟩] = "a" := by decide

/-! ### C34: switching between modes -/

/-- Calls of Enable(mode) and Disable whose writes succeed. -/
inductive ModeOp
  | enable (m : Nat)
  | disable
  deriving DecidableEq, Repr

def TermMode.mode1 (t : TermMode) : ModeOp → TermMode
  | .enable m => (t.enable m none none none none).2
  | .disable => (t.disable none none).2

/-- The private modes that belong to a mouse mode: the mode itself, and with SGR coordinates also
button tracking. -/
def modeSet (m : Nat) (k : Nat) : Bool := decide (k = m) || (decide (m = 1006) && decide (k = 1002))

/-- What is on: the modes of the last Enable, nothing after a Disable or before any call. -/
def onAfter : List ModeOp → Nat → Bool
  | [], _ => false
  | ops, k => match ops.getLast? with
    | some (.enable m) => modeSet m k
    | _ => false

structure ModeInv (t : TermMode) (want : Nat → Bool) : Prop where
  ground : (terminal t.out).st = .ground
  on : ∀ k, (terminal t.out).on k = want k
  off : t.enabled = false → ∀ k, want k = false
  mode : t.enabled = true → ∀ k, want k = modeSet t.mode k

theorem disable_inv {t : TermMode} {want : Nat → Bool} (h : ModeInv t want) :
    ModeInv (t.disable none none).2 (fun _ => false) ∧ (t.disable none none).1 = true ∧ (t.disable none none).2.enabled = false := by
  obtain ⟨en, mode, out⟩ := t
  obtain ⟨hg, hon, hoff, hmode⟩ := h
  cases en with
  | false =>
    refine ⟨⟨hg, ?_, fun _ _ => rfl, (by intro e; cases e)⟩, rfl, rfl⟩
    intro k; rw [show (TermMode.disable ⟨false, mode, out⟩ none none).2 = ⟨false, mode, out⟩ from rfl, hon, hoff rfl]
  | true =>
    have hm := hmode rfl
    simp only at hm
    have w1 := write_seq (t := ⟨true, mode, out⟩) hg mode false
    simp only at w1
    by_cases e : mode = 1006
    · subst e
      have g1 : (terminal (out ++ modeSeq 1006 false)).st = .ground := by rw [w1]
      have w2 := write_seq (t := ⟨true, 1006, out ++ modeSeq 1006 false⟩) g1 1002 false
      simp only at w2
      have e2 : TermMode.disable ⟨true, 1006, out⟩ none none = (true, ⟨false, 1006, (out ++ modeSeq 1006 false) ++ modeSeq 1002 false⟩) := by
        simp [TermMode.disable, TermMode.write]
      rw [e2]
      refine ⟨⟨by rw [w2], ?_, fun _ _ => rfl, (by intro e; cases e)⟩, rfl, rfl⟩
      intro k
      rw [w2, w1]
      simp only []
      split
      · rfl
      · split
        · rfl
        · rename_i n1 n2
          have := hon k
          rw [hm] at this
          rw [show (⟨true, 1006, out⟩ : TermMode).out = out from rfl] at this
          rw [this]; simp [modeSet, n1, n2]
    · have e2 : TermMode.disable ⟨true, mode, out⟩ none none = (true, ⟨false, mode, out ++ modeSeq mode false⟩) := by
        simp [TermMode.disable, TermMode.write, e]
      rw [e2]
      refine ⟨⟨by rw [w1], ?_, fun _ _ => rfl, (by intro e; cases e)⟩, rfl, rfl⟩
      intro k
      rw [w1]
      simp only []
      split
      · rfl
      · rename_i n1
        have := hon k
        rw [hm] at this
        rw [show (⟨true, mode, out⟩ : TermMode).out = out from rfl] at this
        rw [this]; simp [modeSet, n1, e]

theorem enable_inv {t : TermMode} {want : Nat → Bool} (h : ModeInv t want) (m : Nat) :
    ModeInv (t.enable m none none none none).2 (modeSet m) ∧ (t.enable m none none none none).1 = true ∧
    (t.enable m none none none none).2.enabled = true ∧ (t.enable m none none none none).2.mode = m := by
  have hd : ∃ d : TermMode, (if t.enabled then t.disable none none else (true, t)) = (true, d) ∧ ModeInv d (fun _ => false) := by
    cases he : t.enabled with
    | true =>
      have := disable_inv h
      refine ⟨(t.disable none none).2, ?_, this.1⟩
      simp only [if_true]
      exact Prod.ext this.2.1 rfl
    | false =>
      refine ⟨t, by simp, ⟨h.ground, ?_, fun _ _ => rfl, (by intro e; rw [he] at e; cases e)⟩⟩
      intro k; rw [h.on, h.off he]
  obtain ⟨d, e, hi⟩ := hd
  have w1 := write_seq (t := d) hi.ground m true
  by_cases em : m = 1006
  · subst em
    have g1 : (terminal (d.out ++ modeSeq 1006 true)).st = .ground := by rw [w1]
    have w2 := write_seq (t := ⟨d.enabled, d.mode, d.out ++ modeSeq 1006 true⟩) g1 1002 true
    simp only at w2
    have ee : t.enable 1006 none none none none = (true, ⟨true, 1006, (d.out ++ modeSeq 1006 true) ++ modeSeq 1002 true⟩) := by
      unfold TermMode.enable
      rw [e]
      simp [TermMode.write]
    rw [ee]
    refine ⟨⟨by rw [w2], ?_, (by intro e; cases e), fun _ _ => rfl⟩, rfl, rfl, rfl⟩
    intro k
    rw [w2, w1]
    simp only []
    rw [hi.on k]
    unfold modeSet
    by_cases h1 : k = 1002
    · simp [h1]
    · by_cases h2 : k = 1006 <;> simp [h1, h2]
  · have ee : t.enable m none none none none = (true, ⟨true, m, d.out ++ modeSeq m true⟩) := by
      unfold TermMode.enable
      rw [e]
      simp [TermMode.write, em]
    rw [ee]
    refine ⟨⟨by rw [w1], ?_, (by intro e; cases e), fun _ _ => rfl⟩, rfl, rfl, rfl⟩
    intro k
    rw [w1]
    simp only []
    rw [hi.on k]
    unfold modeSet
    by_cases h1 : k = m <;> simp [h1, em]

/-- C34, switching: after any sequence of Enable(mode) and Disable whose writes succeed, the modes that
are on in the terminal are exactly those of the last Enable (nothing after a Disable): switching modes
leaves none of the earlier ones on. -/
theorem C34_switching (ops : List ModeOp) (k : Nat) :
    (terminal (ops.foldl TermMode.mode1 TermMode.new).out).on k = onAfter ops k := by
  have key : ∀ ops : List ModeOp, ModeInv (ops.foldl TermMode.mode1 TermMode.new) (onAfter ops) := by
    intro ops
    induction ops using Phoenix.snocInd with
    | nil => exact ⟨rfl, fun _ => rfl, fun _ _ => rfl, by intro e; cases e⟩
    | append_singleton ops o ih =>
      rw [List.foldl_append]
      have e : onAfter (ops ++ [o]) = fun k => match o with | .enable m => modeSet m k | .disable => false := by
        funext k
        unfold onAfter
        split
        · rename_i h; simp at h
        · rw [List.getLast?_append]
          cases o <;> rfl
      rw [e]
      cases o with
      | enable m => exact (enable_inv ih m).1
      | disable => exact (disable_inv ih).1
  exact (key ops).on k

/-- C34: IsEnabled and Mode report the last successful call. -/
theorem C34_reports (ops : List ModeOp) (m : Nat) :
    ((ops ++ [ModeOp.enable m]).foldl TermMode.mode1 TermMode.new).enabled = true ∧
    ((ops ++ [ModeOp.enable m]).foldl TermMode.mode1 TermMode.new).mode = m ∧
    ((ops ++ [ModeOp.disable]).foldl TermMode.mode1 TermMode.new).enabled = false := by
  have key : ∀ ops : List ModeOp, ∃ want, ModeInv (ops.foldl TermMode.mode1 TermMode.new) want := by
    intro ops
    induction ops using Phoenix.snocInd with
    | nil => exact ⟨fun _ => false, rfl, fun _ => rfl, fun _ _ => rfl, by intro e; cases e⟩
    | append_singleton ops o ih =>
      obtain ⟨w, hw⟩ := ih
      rw [List.foldl_append]
      cases o with
      | enable m => exact ⟨_, (enable_inv hw m).1⟩
      | disable => exact ⟨_, (disable_inv hw).1⟩
  obtain ⟨w, hw⟩ := key ops
  simp only [List.foldl_append, List.foldl_cons, List.foldl_nil]
  exact ⟨(enable_inv hw m).2.2.1, (enable_inv hw m).2.2.2, (disable_inv hw).2.2⟩

example : onAfter [.enable 1003, .enable 1006] 1002 = true ∧ onAfter [.enable 1003, .enable 1006] 1003 = false ∧
    onAfter [.enable 1003, .disable] 1003 = false := by decide

end Phoenix.Mouse
