import Verif.Mouse.Model
set_option linter.unusedVariables false
set_option linter.unusedSimpArgs false
/-
Properties C27-C34 of the mouse package.
-/
namespace Phoenix.Mouse
open Phoenix

/-! ## Specification of the terminal's mouse reports (xterm "mouse tracking") -/

/-- The button number of xterm's control sequences documentation. -/
def specButton : Button → Nat
  | .left => 0 | .middle => 1 | .right => 2 | .wheelUp => 64 | .wheelDown => 65 | .none => 3

/-- The button code Cb: 4 = shift, 8 = meta/alt, 16 = control are added. -/
def specCode (b : Button) (m : Mods) : Nat :=
  specButton b + 4 * m.shift.toNat + 8 * m.alt.toNat + 16 * m.ctrl.toNat

/-- SGR report `CSI < Cb ; Px ; Py M|m`, coordinates one-based. -/
def specSGR (code : Nat) (x y : Nat) (down : Bool) : List Nat :=
  27 :: 91 :: 60 :: (Dec.nat code ++ 59 :: (Dec.nat (x + 1) ++ 59 :: (Dec.nat (y + 1) ++
    [if down then 77 else 109])))

/-- URxvt report `CSI Cb ; Px ; Py M`. -/
def specURxvt (code : Nat) (x y : Nat) : List Nat :=
  27 :: 91 :: (Dec.nat code ++ 59 :: (Dec.nat (x + 1) ++ 59 :: (Dec.nat (y + 1) ++ [77])))

/-- X10 report `CSI M` and three bytes, each offset by 32. -/
def specX10 (code : Nat) (x y : Nat) : List Nat := [27, 91, 77, code + 32, x + 33, y + 33]

theorem decode_spec (b : Button) (m : Mods) (hb : b ≠ .none) :
    decodeButton ((specCode b m : Nat) : Int) = (b, m) := by
  obtain ⟨s, c, a⟩ := m
  cases b <;> cases s <;> cases c <;> cases a <;> first | (exact absurd rfl hb) | decide

theorem encode_spec (b : Button) (m : Mods) (hb : b ≠ .none) : encodeButton b m = specCode b m := by
  obtain ⟨s, c, a⟩ := m
  cases b <;> cases s <;> cases c <;> cases a <;> first | (exact absurd rfl hb) | decide

/-! ## Splitting numbers -/

theorem sep_not_nat (n : Nat) : (59 : Nat) ∉ Dec.nat n := fun h =>
  absurd (Dec.nat_digits n 59 h) (by decide)

theorem threeInts_nat (c x y : Nat) :
    threeInts (Dec.nat c ++ 59 :: (Dec.nat (x + 1) ++ 59 :: Dec.nat (y + 1)))
      = some ((c : Int), ⟨(x : Int), (y : Int)⟩) := by
  unfold threeInts
  rw [Dec.split_append (sep_not_nat c), Dec.split_append (sep_not_nat _),
    Dec.split_none (sep_not_nat _)]
  simp [Dec.atoi_nat]

theorem last_concat (c : Nat) (l : List Nat) : (l ++ [c]).getLast? = some c := by simp

theorem trimSuffix_append (c : Nat) (l : List Nat) : trimSuffix c (l ++ [c]) = l := by
  unfold trimSuffix; simp

theorem trimSuffix_other {c d : Nat} (h : d ≠ c) (l : List Nat) :
    trimSuffix c (l ++ [d]) = l ++ [d] := by
  unfold trimSuffix; simp [h]

theorem last_nat_ne {c : Nat} (hc : Dec.isDigit c = false) (n : Nat) :
    (Dec.nat n).getLast? ≠ some c := by
  intro h
  have := List.mem_of_getLast? h
  have := Dec.nat_digits n c this
  rw [hc] at this; cases this

theorem trimSuffix_num {c : Nat} (hc : Dec.isDigit c = false) (l : List Nat) (n : Nat) :
    trimSuffix c (l ++ Dec.nat n) = l ++ Dec.nat n := by
  unfold trimSuffix
  rw [if_neg]
  intro h
  rw [List.getLast?_append] at h
  have h2 : (Dec.nat n).getLast? ≠ none := by
    intro h3; exact Dec.nat_ne n (by simpa using h3)
  cases h3 : (Dec.nat n).getLast? with
  | none => exact h2 h3
  | some d =>
    rw [h3] at h
    simp at h
    subst h
    exact last_nat_ne hc n h3

/-- What the parser makes of an arbitrary SGR report. -/
theorem parse_specSGR (now : Int) (c x y : Nat) (down : Bool) :
    parseRaw now (specSGR c x y down)
      = some (mkReport now down (c : Int) ⟨(x : Int), (y : Int)⟩) := by
  have key : parseRaw now (specSGR c x y down) = parseSGR now (60 :: (Dec.nat c ++ 59 :: (Dec.nat (x + 1) ++ 59 :: (Dec.nat (y + 1) ++
    [if down then 77 else 109])))) := rfl
  rw [key]
  have body : (60 :: (Dec.nat c ++ 59 :: (Dec.nat (x + 1) ++ 59 :: (Dec.nat (y + 1) ++
    [if down then 77 else 109])))) = (60 :: (Dec.nat c ++ 59 :: (Dec.nat (x + 1) ++ 59 :: Dec.nat (y + 1)))) ++ [if down then 77 else 109] := by
    simp
  rw [body]
  have body2 : (60 :: (Dec.nat c ++ 59 :: (Dec.nat (x + 1) ++ 59 :: Dec.nat (y + 1)))) = (60 :: (Dec.nat c ++ 59 :: (Dec.nat (x + 1) ++ [59]))) ++ Dec.nat (y + 1) := by simp
  unfold parseSGR
  cases down with
  | true =>
    simp only [if_true, Bool.false_eq_true, if_false]
    rw [last_concat, trimSuffix_append, body2, trimSuffix_num (by decide), ← body2]
    unfold sgrParse
    have : trimPrefix 60 (60 :: (Dec.nat c ++ 59 :: (Dec.nat (x + 1) ++ 59 :: Dec.nat (y + 1)))) = (Dec.nat c ++ 59 :: (Dec.nat (x + 1) ++ 59 :: Dec.nat (y + 1))) := by simp [trimPrefix]
    rw [this, threeInts_nat]
    simp
  | false =>
    simp only [if_true, Bool.false_eq_true, if_false]
    rw [last_concat, trimSuffix_other (by decide), trimSuffix_append]
    unfold sgrParse
    have : trimPrefix 60 (60 :: (Dec.nat c ++ 59 :: (Dec.nat (x + 1) ++ 59 :: Dec.nat (y + 1)))) = (Dec.nat c ++ 59 :: (Dec.nat (x + 1) ++ 59 :: Dec.nat (y + 1))) := by simp [trimPrefix]
    rw [this, threeInts_nat]
    simp

/-- C27.  For every button, modifier set and position, the SGR report a terminal sends for
pressing (`down`) or releasing the button, or turning the wheel, parses to exactly that event. -/
theorem C27_sgr_round_trip (now : Int) (b : Button) (hb : b ≠ .none) (m : Mods) (x y : Nat)
    (down : Bool) :
    parseRaw now (specSGR (specCode b m) x y down)
      = some ⟨if b = .wheelUp ∨ b = .wheelDown then .scroll else if down then .press else .release,
          b, ⟨x, y⟩, m, now⟩ := by
  rw [parse_specSGR]
  unfold mkReport
  simp only [decode_spec b m hb, reportType]
  cases b <;> simp_all [Button.isWheel]
example := C27_sgr_round_trip 7 .left (by decide) ⟨true, true, false⟩ 4 2 true


/-- The library's own formatter produces those reports. -/
theorem C27_format_is_xterm (e : Event) (hb : e.button ≠ .none) (x y : Nat) (hx : e.pos = ⟨x, y⟩)
    (down : Bool) : sgrFormat e down = specSGR (specCode e.button e.mods) x y down := by
  unfold sgrFormat specSGR
  rw [encode_spec _ _ hb, hx]
  have h1 : Dec.int ((x : Int) + 1) = Dec.nat (x + 1) := rfl
  have h2 : Dec.int ((y : Int) + 1) = Dec.nat (y + 1) := rfl
  simp only [h1, h2]
  simp

example : parseRaw 7 [27, 91, 60, 50, 48, 59, 53, 59, 51, 77]
    = some ⟨.press, .left, ⟨4, 2⟩, ⟨true, true, false⟩, 7⟩ := by decide

/-- The URxvt encoding of presses and wheel turns round-trips likewise. -/
theorem C27_urxvt_round_trip (now : Int) (b : Button) (hb : b ≠ .none) (m : Mods) (x y : Nat) :
    parseRaw now (specURxvt (specCode b m) x y)
      = some ⟨if b = .wheelUp ∨ b = .wheelDown then .scroll else .press, b, ⟨x, y⟩, m, now⟩ := by
  have body : specURxvt (specCode b m) x y = 27 :: 91 :: ((Dec.nat (specCode b m) ++ 59 :: (Dec.nat (x + 1) ++ 59 :: Dec.nat (y + 1))) ++ [77]) := by
    unfold specURxvt; simp
  rw [body]
  have hne := Dec.nat_ne (specCode b m)
  have hd := Dec.nat_digits (specCode b m)
  have htr : parseRaw now (27 :: 91 :: ((Dec.nat (specCode b m) ++ 59 :: (Dec.nat (x + 1) ++ 59 :: Dec.nat (y + 1))) ++ [77]))
      = parseURxvt now ((Dec.nat (specCode b m) ++ 59 :: (Dec.nat (x + 1) ++ 59 :: Dec.nat (y + 1))) ++ [77]) := by
    unfold parseRaw
    have t1 : trimPrefix 91 (trimPrefix 27 (27 :: 91 :: ((Dec.nat (specCode b m) ++ 59 :: (Dec.nat (x + 1) ++ 59 :: Dec.nat (y + 1))) ++ [77]))) = ((Dec.nat (specCode b m) ++ 59 :: (Dec.nat (x + 1) ++ 59 :: Dec.nat (y + 1))) ++ [77]) := rfl
    rw [t1]
    simp only
    cases hc : Dec.nat (specCode b m) with
    | nil => exact absurd hc hne
    | cons d t =>
      have hdd := hd d (by rw [hc]; simp)
      have n1 : d ≠ 60 := Dec.digit_ne hdd (by decide)
      have n2 : d ≠ 77 := Dec.digit_ne hdd (by decide)
      rw [if_neg (by simpa using n1), if_neg (by simpa using n2), last_concat, if_pos]
      simp
  rw [htr]
  unfold parseURxvt urxvtParse
  rw [trimSuffix_append, threeInts_nat]
  simp only [Option.map_some, mkReport, decode_spec b m hb, reportType]
  cases b <;> simp_all [Button.isWheel]
/-- C27: the URXVT formatter writes what the terminal would send. -/
theorem C27_urxvt_format (e : Event) (hb : e.button ≠ .none) (x y : Nat) (hx : e.pos = ⟨x, y⟩) :
    urxvtFormat e = specURxvt (specCode e.button e.mods) x y := by
  unfold urxvtFormat specURxvt
  rw [encode_spec _ _ hb, hx]
  have h1 : Dec.int ((x : Int) + 1) = Dec.nat (x + 1) := rfl
  have h2 : Dec.int ((y : Int) + 1) = Dec.nat (y + 1) := rfl
  simp only [h1, h2]
  try simp
example := C27_urxvt_format ⟨.press, .wheelUp, ⟨300, 2⟩, ⟨false, true, false⟩, 7⟩ (by decide) 300 2 rfl
example := C27_urxvt_round_trip 7 .wheelUp (by decide) ⟨false, true, false⟩ 300 2


/-! ## C28: X10 -/

theorem parse_x10 (now : Int) (a b c : Nat) :
    parseRaw now [27, 91, 77, a, b, c]
      = some (mkReport now true ((a : Int) - 32) ⟨(b : Int) - 32 - 1, (c : Int) - 32 - 1⟩) := rfl

/-- C28, full claim: what the library formats as an X10 report parses back to the event. -/
def C28_round_trip_statement : Prop :=
  ∀ (now : Int) (b : Button), b ≠ .none → ∀ (m : Mods) (x y : Nat),
    let t : EventType := if b = .wheelUp ∨ b = .wheelDown then .scroll else .press
    parseRaw now (x10Format ⟨t, b, ⟨x, y⟩, m, now⟩) = some ⟨t, b, ⟨x, y⟩, m, now⟩

/-- C28 for the coordinates an X10 byte can hold (0..222): the terminal's report parses to the
event, and the library formats exactly that report. -/
theorem C28_x10_round_trip_partial (now : Int) (b : Button) (hb : b ≠ .none) (m : Mods)
    (x y : Nat) (hx : x ≤ 222) (hy : y ≤ 222) :
    (let t : EventType := if b = .wheelUp ∨ b = .wheelDown then .scroll else .press
     parseRaw now (specX10 (specCode b m) x y) = some ⟨t, b, ⟨x, y⟩, m, now⟩ ∧
       x10Format ⟨t, b, ⟨x, y⟩, m, now⟩ = specX10 (specCode b m) x y) ∧
    ∀ c ∈ specX10 (specCode b m) x y, c < 256 := by
  have hcode : specCode b m < 96 := by
    obtain ⟨s, c, a⟩ := m
    cases b <;> cases s <;> cases c <;> cases a <;> decide
  refine ⟨⟨?_, ?_⟩, ?_⟩
  · unfold specX10
    rw [parse_x10]
    unfold mkReport
    have e1 : ((specCode b m + 32 : Nat) : Int) - 32 = ((specCode b m : Nat) : Int) := by omega
    have e2 : ((x + 33 : Nat) : Int) - 32 - 1 = (x : Int) := by omega
    have e3 : ((y + 33 : Nat) : Int) - 32 - 1 = (y : Int) := by omega
    rw [e1, e2, e3]
    simp only [decode_spec b m hb, reportType]
    cases b <;> simp_all [Button.isWheel]
  · unfold x10Format specX10
    simp only [encode_spec _ _ hb, toByte]
    have e1 : (((specCode b m : Nat) : Int) + 32) % 256 = ((specCode b m + 32 : Nat) : Int) := by omega
    have e2 : ((x : Int) + 1 + 32) % 256 = ((x + 33 : Nat) : Int) := by omega
    have e3 : ((y : Int) + 1 + 32) % 256 = ((y + 33 : Nat) : Int) := by omega
    rw [e1, e2, e3]
    rfl
  · intro c hc
    simp [specX10] at hc
    omega
example := C28_x10_round_trip_partial 7 .middle (by decide) ⟨true, false, false⟩ 222 10 (by decide) (by decide)


/-- A column of 223 or more does not survive: the byte wraps and the parsed event lies off
screen. -/
theorem C28_round_trip_refuted : ¬ C28_round_trip_statement := by
  intro h
  have := h 0 .left (by decide) ⟨false, false, false⟩ 223 0
  revert this
  decide

/-- In the X10 encoding a release is reported with button code 3; for every position and
modifier set the parser returns a press of no button instead of a release. -/
theorem C28_release_reported_as_press_refuted (now : Int) (m : Mods) (x y : Nat) :
    parseRaw now (specX10 (specCode .none m) x y) = some ⟨.press, .none, ⟨x, y⟩, m, now⟩ := by
  unfold specX10
  rw [parse_x10]
  unfold mkReport
  have e1 : ((specCode .none m + 32 : Nat) : Int) - 32 = ((specCode .none m : Nat) : Int) := by omega
  have e2 : ((x + 33 : Nat) : Int) - 32 - 1 = (x : Int) := by omega
  have e3 : ((y + 33 : Nat) : Int) - 32 - 1 = (y : Int) := by omega
  rw [e1, e2, e3]
  have : decodeButton ((specCode .none m : Nat) : Int) = (.none, m) := by
    obtain ⟨s, c, a⟩ := m
    cases s <;> cases c <;> cases a <;> decide
  rw [this]
  rfl

/-! ## C29: click counting -/

/-- The specification of "continues the multi-click started by `p`". -/
def Continues (timeout tolerance : Int) (p e : Event) : Prop :=
  e.button = p.button ∧ e.time - p.time ≤ timeout ∧
    ((e.pos.x - p.pos.x).natAbs + (e.pos.y - p.pos.y).natAbs : Int) ≤ tolerance

instance (a b : Int) (p e : Event) : Decidable (Continues a b p e) := by
  unfold Continues; infer_instance

/-- How many immediately preceding clicks (newest first in `h`) the newest one continues. -/
def runLen (timeout tolerance : Int) : List Event → Nat
  | [] => 0
  | [_] => 0
  | e :: p :: t => if Continues timeout tolerance p e then runLen timeout tolerance (p :: t) + 1 else 0

/-- The same event with another type. -/
def Event.as (e : Event) (t : EventType) : Event := { e with type := t }

/-- Single, double, triple, single, ... -/
def specKind (n : Nat) : EventType :=
  if n % 3 = 0 then .click else if n % 3 = 1 then .doubleClick else .tripleClick

theorem distance_eq (p o : Pos) :
    p.distanceTo o = ((p.x - o.x).natAbs + (p.y - o.y).natAbs : Int) := by
  unfold Pos.distanceTo
  simp only
  split <;> split <;> omega

theorem continues_iff (d : Detector) (l e : Event) :
    d.continues l e = true ↔ Continues d.timeout d.tolerance l e := by
  unfold Detector.continues Continues
  rw [distance_eq]
  simp only [Bool.and_eq_true, decide_eq_true_eq]
  constructor
  · rintro ⟨⟨h1, h2⟩, h3⟩; exact ⟨h3, h1, h2⟩
  · rintro ⟨h1, h2, h3⟩; exact ⟨⟨h2, h3⟩, h1⟩

/-- The state of the detector after the clicks `h` (newest first). -/
def Detector.Agrees (d : Detector) (h : List Event) : Prop :=
  d.count = (match h with | [] => 0 | _ :: _ => ((runLen d.timeout d.tolerance h % 3 : Nat) : Int) + 1) ∧
  d.last.map (fun l => { l with type := EventType.release }) = h.head? 

theorem continues_type (a b : Int) (p e : Event) (t u : EventType) :
    Continues a b { p with type := t } { e with type := u } ↔ Continues a b p e := Iff.rfl

theorem agrees_new (a b : Int) : (Detector.new a b).Agrees [] := ⟨rfl, rfl⟩

theorem clickKind_spec (n : Nat) : clickKind (((n % 3 : Nat) : Int) + 1) = (specKind n, ((n % 3 : Nat) : Int) + 1) := by
  have : n % 3 = 0 ∨ n % 3 = 1 ∨ n % 3 = 2 := by omega
  rcases this with h | h | h <;> simp [clickKind, specKind, h]

theorem clickKind_wrap (n : Nat) : clickKind (((n % 3 : Nat) : Int) + 1 + 1) = (specKind (n + 1), (((n + 1) % 3 : Nat) : Int) + 1) := by
  have : n % 3 = 0 ∨ n % 3 = 1 ∨ n % 3 = 2 := by omega
  rcases this with h | h | h
  · have h2 : (n + 1) % 3 = 1 := by omega
    simp [clickKind, specKind, h, h2]
  · have h2 : (n + 1) % 3 = 2 := by omega
    simp [clickKind, specKind, h, h2]
  · have h2 : (n + 1) % 3 = 0 := by omega
    simp [clickKind, specKind, h, h2]

theorem detect_agrees {d : Detector} {h : List Event} (ha : d.Agrees h) {e : Event}
    (he : e.type = .release) :
    (d.detect e).1 = some (e.as (specKind (runLen d.timeout d.tolerance (e :: h)))) ∧
    (d.detect e).2.Agrees (e :: h) ∧ (d.detect e).2.timeout = d.timeout ∧
    (d.detect e).2.tolerance = d.tolerance := by
  have hk : clickKind (d.nextCount e) = (specKind (runLen d.timeout d.tolerance (e :: h)),
      ((runLen d.timeout d.tolerance (e :: h) % 3 : Nat) : Int) + 1) := by
    obtain ⟨hc, hl⟩ := ha
    unfold Detector.nextCount
    cases h with
    | nil =>
      have : d.last = none := by simpa using hl
      rw [this]; rfl
    | cons p t =>
      cases hd : d.last with
      | none => rw [hd] at hl; simp at hl
      | some l =>
        rw [hd] at hl
        simp at hl
        subst hl
        simp only [Option.elim]
        rw [runLen]
        by_cases hcont : Continues d.timeout d.tolerance l e
        · rw [if_pos ((continues_iff d l e).2 hcont), if_pos ((continues_type _ _ l e .release e.type).2 hcont), hc]
          exact clickKind_wrap _
        · rw [if_neg (fun x => hcont ((continues_iff d l e).1 x)),
            if_neg (fun x => hcont ((continues_type _ _ l e .release e.type).1 x))]
          rfl
  unfold Detector.detect
  rw [if_neg (by simpa using he)]
  simp only [hk]
  refine ⟨rfl, ⟨rfl, ?_⟩, by trivial, by trivial⟩
  simp only [Option.map_some, List.head?_cons, Option.some.injEq]
  cases e; simp at he; subst he; rfl

/-- Run the detector over releases, oldest first, collecting its answers. -/
def Detector.run (d : Detector) : List Event → List (Option Event) × Detector
  | [] => ([], d)
  | e :: t => ((d.detect e).1 :: ((d.detect e).2.run t).1, ((d.detect e).2.run t).2)

theorem run_agrees (es : List Event) : ∀ (d : Detector) (h : List Event), d.Agrees h →
    (∀ e ∈ es, e.type = .release) →
    ∀ (i : Nat) (e : Event), es[i]? = some e →
      (d.run es).1[i]? = some (some (e.as (specKind (runLen d.timeout d.tolerance ((es.take (i + 1)).reverse ++ h))))) := by
  induction es with
  | nil => intro d h ha hr i e he; simp at he
  | cons x t ih =>
    intro d h ha hr i e he
    obtain ⟨k1, k2, k3, k4⟩ := detect_agrees ha (hr x (by simp))
    cases i with
    | zero =>
      simp only [List.getElem?_cons_zero, Option.some.injEq] at he
      subst he
      simp only [Detector.run, List.getElem?_cons_zero]
      rw [k1]
      simp
    | succ i =>
      simp only [List.getElem?_cons_succ] at he
      simp only [Detector.run, List.getElem?_cons_succ]
      rw [ih _ (x :: h) k2 (fun e he => hr e (by simp [he])) i e he, k3, k4]
      simp

/-- C29.  For every sequence of button releases fed to a new detector, the i-th answer is a
single, double or triple click according to how many immediately preceding releases it
continues (same button, within the time limit, within the tolerance), counted modulo three. -/
theorem C29_click_count (timeout tolerance : Int) (ht : 0 < timeout) (hl : 0 ≤ tolerance)
    (es : List Event) (hr : ∀ e ∈ es, e.type = .release) (i : Nat) (e : Event) (he : es[i]? = some e) :
    ((Detector.new timeout tolerance).run es).1[i]?
      = some (some (e.as (specKind (runLen timeout tolerance (es.take (i + 1)).reverse)))) := by
  have := run_agrees es _ [] (agrees_new timeout tolerance) hr i e he
  have t1 : (Detector.new timeout tolerance).timeout = timeout := by
    show (if timeout ≤ 0 then (500000000 : Int) else timeout) = timeout
    rw [if_neg (by omega)]
  have t2 : (Detector.new timeout tolerance).tolerance = tolerance := by
    show (if tolerance < 0 then (1 : Int) else tolerance) = tolerance
    rw [if_neg (by omega)]
  rw [t1, t2] at this
  simpa using this
example :=
  let r (t : Int) : Event := ⟨.release, .left, ⟨3, 3⟩, ⟨false, false, false⟩, t⟩
  C29_click_count 500 1 (by decide) (by decide) [r 0, r 100, r 200, r 300] (by simp [r]) 2 (r 200) rfl


/-- A release that does not continue its predecessor is always a single click, and every answer
is a single, double or triple click. -/
theorem C29_kinds (d : Detector) (h : List Event) (ha : d.Agrees h) (e : Event)
    (he : e.type = .release) :
    (∃ c, (d.detect e).1 = some c ∧ (c.type = .click ∨ c.type = .doubleClick ∨ c.type = .tripleClick)) ∧
    ((∀ p ∈ h.head?, ¬ Continues d.timeout d.tolerance p e) →
      (d.detect e).1 = some (e.as .click)) := by
  obtain ⟨k1, _⟩ := detect_agrees ha he
  constructor
  · refine ⟨_, k1, ?_⟩
    show specKind _ = _ ∨ specKind _ = _ ∨ specKind _ = _
    unfold specKind
    split
    · exact Or.inl rfl
    · split
      · exact Or.inr (Or.inl rfl)
      · exact Or.inr (Or.inr rfl)
  · intro hn
    rw [k1]
    have : runLen d.timeout d.tolerance (e :: h) = 0 := by
      cases h with
      | nil => rfl
      | cons p t => rw [runLen, if_neg (hn p (by simp))]
    rw [this]
    rfl

/-- Three quick clicks, then a fourth: single, double, triple, single. -/
example :
    let r (t : Int) : Event := ⟨.release, .left, ⟨3, 3⟩, ⟨false, false, false⟩, t⟩
    ((Detector.new 500 1).run [r 0, r 100, r 200, r 300]).1.map (fun o => o.map (·.type))
      = [some .click, some .doubleClick, some .tripleClick, some .click] := by decide

/-! ## C31: the drag protocol of the event processor, specified by the history -/

/-- The press event whose button is still held, from the history (newest first). -/
def held : List Event → Option Event
  | [] => none
  | e :: t => if e.type = .press then some e else if e.type = .release then none else held t

/-- The pointer position reported last by a press or a motion. -/
def pointer : List Event → Pos
  | [] => ⟨0, 0⟩
  | e :: t => if e.type = .press ∨ e.type = .motion then e.pos else pointer t

/-- A drag is in progress: a button is held and the pointer is at least `thr` cells from where
it was pressed. -/
def Dragging (thr : Int) (h : List Event) : Prop :=
  ∃ p, held h = some p ∧ thr ≤ ((p.pos.x - (pointer h).x).natAbs + (p.pos.y - (pointer h).y).natAbs : Int)

instance (thr : Int) (h : List Event) : Decidable (Dragging thr h) :=
  match hh : held h with
  | none => isFalse (by rintro ⟨p, hp, _⟩; rw [hh] at hp; cases hp)
  | some p =>
    if hd : thr ≤ ((p.pos.x - (pointer h).x).natAbs + (p.pos.y - (pointer h).y).natAbs : Int) then
      isTrue ⟨p, hh, hd⟩
    else isFalse (by rintro ⟨q, hq, hd2⟩; rw [hh] at hq; cases hq; exact hd hd2)

/-- The releases of the history that ended no drag, newest first. -/
def plainReleases (thr : Int) : List Event → List Event
  | [] => []
  | e :: t =>
    if e.type = .release ∧ ¬ Dragging thr t then e :: plainReleases thr t else plainReleases thr t

/-- What the application must be told about event `e` after history `h`. -/
def specEvents (timeout tolerance thr : Int) (h : List Event) (e : Event) : List Event :=
  if e.type = .release then
    if Dragging thr h then [e]
    else [e.as (specKind (runLen timeout tolerance (plainReleases thr (e :: h)))), e]
  else if e.type = .motion then
    match held h with
    | some p => if Dragging thr (e :: h) then [⟨.drag, p.button, e.pos, p.mods, e.time⟩] else [e]
    | none => [e]
  else [e]

/-- The processor state agrees with the history. -/
structure Processor.Agrees (p : Processor) (h : List Event) : Prop where
  clicks : p.clicks.Agrees (plainReleases p.drag.threshold h)
  active : p.drag.active = (held h).isSome
  start : ∀ e, held h = some e → p.drag.start = e.pos ∧ p.drag.button = e.button ∧ p.drag.mods = e.mods ∧
    p.drag.current = pointer h

theorem agrees_init (a b c : Int) : (Processor.withConfig a b c).Agrees [] :=
  ⟨agrees_new _ _, rfl, by intro e h; cases h⟩

theorem isDrag_iff {p : Processor} {h : List Event} (ha : p.Agrees h) :
    p.drag.isDrag = true ↔ Dragging p.drag.threshold h := by
  unfold Drag.isDrag
  rw [Bool.and_eq_true, decide_eq_true_eq, ha.active, distance_eq]
  constructor
  · rintro ⟨h1, h2⟩
    cases hh : held h with
    | none => rw [hh] at h1; cases h1
    | some e =>
      obtain ⟨s1, s2, s3, s4⟩ := ha.start e hh
      rw [s1, s4] at h2
      exact ⟨e, hh, h2⟩
  · rintro ⟨e, hh, hd⟩
    obtain ⟨s1, s2, s3, s4⟩ := ha.start e hh
    rw [s1, s4]
    exact ⟨by rw [hh]; rfl, hd⟩

theorem held_other {e : Event} {h : List Event} (h1 : e.type ≠ .press) (h2 : e.type ≠ .release) :
    held (e :: h) = held h := by
  rw [held, if_neg h1, if_neg h2]

theorem plain_other {thr : Int} {e : Event} {h : List Event} (h2 : e.type ≠ .release) :
    plainReleases thr (e :: h) = plainReleases thr h := by
  rw [plainReleases, if_neg (by rintro ⟨a, _⟩; exact h2 a)]

theorem process_agrees {p : Processor} {h : List Event} (ha : p.Agrees h) (e : Event) :
    (p.process e).1 = specEvents p.clicks.timeout p.clicks.tolerance p.drag.threshold h e ∧
    (p.process e).2.Agrees (e :: h) ∧ (p.process e).2.drag.threshold = p.drag.threshold ∧
    (p.process e).2.clicks.timeout = p.clicks.timeout ∧
    (p.process e).2.clicks.tolerance = p.clicks.tolerance := by
  unfold Processor.process
  by_cases hp : e.type = .press
  · rw [if_pos hp]
    have hr : e.type ≠ .release := by rw [hp]; decide
    have hm : e.type ≠ .motion := by rw [hp]; decide
    refine ⟨?_, ⟨?_, ?_, ?_⟩, ?_, rfl, rfl⟩
    · unfold specEvents; rw [if_neg hr, if_neg hm]
    · show p.clicks.Agrees (plainReleases (p.drag.press e).threshold (e :: h))
      rw [plain_other hr]
      unfold Drag.press; rw [if_pos hp]
      exact ha.clicks
    · simp [Drag.press, hp, Drag.begin, held]
    · intro e' he'
      rw [held, if_pos hp] at he'
      cases he'
      simp [Drag.press, hp, Drag.begin, pointer]
    · simp [Drag.press, hp, Drag.begin]
  rw [if_neg hp]
  by_cases hr : e.type = .release
  · rw [if_pos hr]
    have hheld : held (e :: h) = none := by rw [held, if_neg hp, if_pos hr]
    have hdr : p.drag.release = (p.drag.isDrag, { p.drag with active := false }) := by
      unfold Drag.release
      cases hact : p.drag.active with
      | true => simp
      | false =>
        simp [Drag.isDrag, hact]
        cases hd : p.drag; rw [hd] at hact; simp at hact; subst hact; rfl
    unfold Processor.release
    rw [hdr]
    simp only
    by_cases hdrag : Dragging p.drag.threshold h
    · have hb : p.drag.isDrag = true := (isDrag_iff ha).2 hdrag
      rw [hb]
      simp only [Bool.not_true, Bool.false_eq_true, if_false]
      refine ⟨?_, ⟨?_, ?_, ?_⟩, by trivial, by trivial, by trivial⟩
      · unfold specEvents; rw [if_pos hr, if_pos hdrag]
      · show p.clicks.Agrees (plainReleases p.drag.threshold (e :: h))
        rw [plainReleases, if_neg (by rintro ⟨_, a⟩; exact a hdrag)]
        exact ha.clicks
      · rw [hheld]; rfl
      · intro e' he'; rw [hheld] at he'; cases he'
    · have hb : p.drag.isDrag = false := by
        cases hx : p.drag.isDrag with
        | false => rfl
        | true => exact absurd ((isDrag_iff ha).1 hx) hdrag
      rw [hb]
      simp only [Bool.not_false, if_true]
      have hpl : plainReleases p.drag.threshold (e :: h) = e :: plainReleases p.drag.threshold h := by
        rw [plainReleases, if_pos ⟨hr, hdrag⟩]
      obtain ⟨k1, k2, k3, k4⟩ := detect_agrees ha.clicks hr
      refine ⟨?_, ⟨?_, ?_, ?_⟩, by trivial, k3, k4⟩
      · unfold specEvents
        rw [if_pos hr, if_neg hdrag, k1, hpl]; rfl
      · show (p.clicks.detect e).2.Agrees (plainReleases p.drag.threshold (e :: h))
        rw [hpl]; exact k2
      · rw [hheld]; rfl
      · intro e' he'; rw [hheld] at he'; cases he'
  rw [if_neg hr]
  by_cases hm : e.type = .motion
  · rw [if_pos hm]
    unfold Processor.motion Drag.motion
    have hh := held_other (h := h) hp hr
    have hpo : pointer (e :: h) = e.pos := by rw [pointer, if_pos (Or.inr hm)]
    have hpl := plain_other (thr := p.drag.threshold) (h := h) hr
    cases hact : p.drag.active with
    | false =>
      have hn : held h = none := by
        have := ha.active
        rw [hact] at this
        cases hx : held h with
        | none => rfl
        | some _ => rw [hx] at this; cases this
      simp only [Bool.not_false, if_true, Option.elim]
      refine ⟨?_, ⟨?_, ?_, ?_⟩, by trivial, by trivial, by trivial⟩
      · unfold specEvents; rw [if_neg hr, if_pos hm, hn]
      · show p.clicks.Agrees (plainReleases p.drag.threshold (e :: h))
        rw [hpl]; exact ha.clicks
      · show p.drag.active = _
        rw [hh, hn, hact]; rfl
      · intro e' he'; rw [hh, hn] at he'; cases he'
    | true =>
      cases hx : held h with
      | none =>
        have := ha.active
        rw [hact, hx] at this; cases this
      | some q =>
      obtain ⟨s1, s2, s3, s4⟩ := ha.start q hx
      have hup : p.drag.update e.pos = { p.drag with current := e.pos } := by
        unfold Drag.update; rw [if_pos hact]
      have hag : (⟨p.clicks, { p.drag with current := e.pos }⟩ : Processor).Agrees (e :: h) := by
        refine ⟨?_, ?_, ?_⟩
        · show p.clicks.Agrees (plainReleases p.drag.threshold (e :: h))
          rw [hpl]; exact ha.clicks
        · show p.drag.active = _
          rw [hh, hx, hact]; rfl
        · intro e' he'
          rw [hh, hx] at he'; cases he'
          exact ⟨s1, s2, s3, hpo.symm⟩
      simp only [Bool.not_true, Bool.false_eq_true, if_false, hup]
      have hiff := isDrag_iff hag
      by_cases hd : Dragging p.drag.threshold (e :: h)
      · have hb : ({ p.drag with current := e.pos } : Drag).isDrag = true := hiff.2 hd
        simp only [hb, if_true, Option.elim]
        refine ⟨?_, hag, by trivial, by trivial, by trivial⟩
        unfold specEvents
        rw [if_neg hr, if_pos hm, hx]
        simp only
        rw [if_pos hd, s2, s3]
      · have hb : ({ p.drag with current := e.pos } : Drag).isDrag = false := by
          cases hy : ({ p.drag with current := e.pos } : Drag).isDrag with
          | false => rfl
          | true => exact absurd (hiff.1 hy) hd
        simp only [hb, Bool.false_eq_true, if_false, Option.elim]
        refine ⟨?_, hag, by trivial, by trivial, by trivial⟩
        unfold specEvents
        rw [if_neg hr, if_pos hm, hx]
        simp only
        rw [if_neg hd]
  · rw [if_neg hm]
    refine ⟨?_, ⟨?_, ?_, ?_⟩, rfl, rfl, rfl⟩
    · unfold specEvents; rw [if_neg hr, if_neg hm]
    · rw [plain_other hr]; exact ha.clicks
    · rw [held_other hp hr]; exact ha.active
    · intro e' he'
      rw [held_other hp hr] at he'
      have := ha.start e' he'
      rw [pointer, if_neg (by rintro (a | a); exact hp a; exact hm a)]
      exact this

/-- Process events, oldest first. -/
def Processor.run (p : Processor) : List Event → List (List Event) × Processor
  | [] => ([], p)
  | e :: t => ((p.process e).1 :: ((p.process e).2.run t).1, ((p.process e).2.run t).2)

theorem process_run (es : List Event) : ∀ (p : Processor) (h : List Event), p.Agrees h →
    (∀ (i : Nat) (e : Event), es[i]? = some e →
      (p.run es).1[i]? = some (specEvents p.clicks.timeout p.clicks.tolerance p.drag.threshold
        ((es.take i).reverse ++ h) e)) ∧
    (p.run es).2.Agrees (es.reverse ++ h) ∧ (p.run es).2.drag.threshold = p.drag.threshold := by
  induction es with
  | nil => intro p h ha; exact ⟨by intro i e he; simp at he, by simpa [Processor.run] using ha, rfl⟩
  | cons x t ih =>
    intro p h ha
    obtain ⟨k1, k2, k3, k4, k5⟩ := process_agrees ha x
    obtain ⟨i1, i2, i3⟩ := ih _ _ k2
    refine ⟨?_, ?_, ?_⟩
    · intro i e he
      cases i with
      | zero =>
        simp only [List.getElem?_cons_zero, Option.some.injEq] at he
        subst he
        simp only [Processor.run, List.getElem?_cons_zero, k1]
        simp
      | succ i =>
        simp only [List.getElem?_cons_succ] at he
        simp only [Processor.run, List.getElem?_cons_succ]
        rw [i1 i e he, k3, k4, k5]
        simp
    · simp only [Processor.run, List.reverse_cons, List.append_assoc, List.cons_append, List.nil_append]
      exact i2
    · simp only [Processor.run]
      rw [i3, k3]

/-- C31.  For every sequence of events given to a new processor, what it reports for the i-th
event is what the history demands: a motion yields a drag event (with the button and modifiers
of the press) exactly when a button is held and the pointer is at least the threshold away from
where it was pressed; a release yields a click, counted over the releases that ended no drag,
exactly when no drag is in progress; everything else is passed on unchanged. -/
theorem C31_processor_protocol (timeout tolerance thr : Int) (ht : 0 < timeout)
    (hl : 0 ≤ tolerance) (hth : 0 < thr) (es : List Event) (i : Nat) (e : Event)
    (he : es[i]? = some e) :
    ((Processor.withConfig timeout tolerance thr).run es).1[i]?
      = some (specEvents timeout tolerance thr (es.take i).reverse e) := by
  have := (process_run es _ [] (agrees_init timeout tolerance thr)).1 i e he
  have t1 : (Processor.withConfig timeout tolerance thr).clicks.timeout = timeout := by
    show (if timeout ≤ 0 then (500000000 : Int) else timeout) = timeout
    rw [if_neg (by omega)]
  have t2 : (Processor.withConfig timeout tolerance thr).clicks.tolerance = tolerance := by
    show (if tolerance < 0 then (1 : Int) else tolerance) = tolerance
    rw [if_neg (by omega)]
  have t3 : (Processor.withConfig timeout tolerance thr).drag.threshold = thr := by
    show (if thr ≤ 0 then (2 : Int) else thr) = thr
    rw [if_neg (by omega)]
  rw [t1, t2, t3] at this
  simpa using this
example :=
  let e (t : EventType) (x : Nat) : Event := ⟨t, .left, ⟨x, 3⟩, ⟨false, false, false⟩, x⟩
  C31_processor_protocol 500 1 2 (by decide) (by decide) (by decide) [e .press 3, e .motion 4, e .motion 9, e .release 9] 2
    (e .motion 9) rfl


/-- C31, the defaults: half a second between clicks, one cell of tolerance, two cells to a drag. -/
theorem C31_default (es : List Event) (i : Nat) (e : Event) (he : es[i]? = some e) :
    (Processor.new.run es).1[i]? = some (specEvents 500000000 1 2 (es.take i).reverse e) :=
  C31_processor_protocol 500000000 1 2 (by decide) (by decide) (by decide) es i e he

/-- IsDragging tells, at every time, whether a drag is in progress. -/
theorem C31_isDragging (timeout tolerance thr : Int) (hth : 0 < thr) (es : List Event) :
    ((Processor.withConfig timeout tolerance thr).run es).2.isDragging = true ↔
      Dragging thr es.reverse := by
  obtain ⟨_, h2, h3⟩ := process_run es _ [] (agrees_init timeout tolerance thr)
  have t3 : (Processor.withConfig timeout tolerance thr).drag.threshold = thr := by
    show (if thr ≤ 0 then (2 : Int) else thr) = thr
    rw [if_neg (by omega)]
  have := isDrag_iff h2
  rw [h3, t3, List.append_nil] at this
  exact this
example :=
  let e (t : EventType) (x : Nat) : Event := ⟨t, .left, ⟨x, 3⟩, ⟨false, false, false⟩, x⟩
  (C31_isDragging 500 1 2 (by decide) [e .press 3, e .motion 9]).1 (by decide)


/-- No drag event without a held button: if every press in the history was released, no motion
is turned into a drag. -/
theorem C31_no_drag_without_press (timeout tolerance thr : Int) (h : List Event) (e : Event)
    (hh : held h = none) (he : e.type ≠ .drag) :
    ∀ o ∈ specEvents timeout tolerance thr h e, o.type ≠ .drag := by
  intro o ho
  unfold specEvents at ho
  split at ho
  · split at ho
    · simp at ho; subst ho; exact he
    · simp at ho
      rcases ho with ho | ho
      · subst ho
        show specKind _ ≠ _
        unfold specKind; split
        · decide
        · split <;> decide
      · subst ho; exact he
  · split at ho
    · rw [hh] at ho; simp at ho; subst ho; exact he
    · simp at ho; subst ho; exact he
example :=
  let e (t : EventType) (x : Nat) : Event := ⟨t, .left, ⟨x, 3⟩, ⟨false, false, false⟩, x⟩
  C31_no_drag_without_press 500 1 2 [e .release 9, e .press 3] (e .motion 20) (by decide) (by decide)


/-- C31, the informal claim "a gesture that produced a drag event produces no click". -/
def C31_drag_or_click_statement : Prop :=
  ∀ (press release : Event) (moves : List Event), press.type = .press → release.type = .release →
    (∀ m ∈ moves, m.type = .motion) →
    let r := ((Processor.new).run (press :: moves ++ [release])).1.flatten
    (∃ d ∈ r, d.type = .drag) → ∀ c ∈ r, c.type ≠ .click

/-- Dragging out and back to the start yields drag events and then a click. -/
theorem C31_drag_or_click_refuted : ¬ C31_drag_or_click_statement := by
  intro h
  let ev (t : EventType) (x : Int) : Event := ⟨t, .left, ⟨x, 0⟩, ⟨false, false, false⟩, 0⟩
  have := h (ev .press 0) (ev .release 0) [ev .motion 9, ev .motion 0] rfl rfl (by decide)
    ⟨⟨.drag, .left, ⟨9, 0⟩, ⟨false, false, false⟩, 0⟩, by decide, rfl⟩ (ev .click 0) (by decide)
  exact this rfl

/-! ## C30: dragging through the real input path -/

theorem reportType_cases (b : Button) (p : Bool) :
    reportType b p = .scroll ∨ reportType b p = .press ∨ reportType b p = .release := by
  unfold reportType
  split
  · exact Or.inl rfl
  · split
    · exact Or.inr (Or.inl rfl)
    · exact Or.inr (Or.inr rfl)

theorem parse_types (now : Int) (s : List Nat) (e : Event) (h : parseRaw now s = some e) :
    e.type = .scroll ∨ e.type = .press ∨ e.type = .release := by
  have three : ∀ (o : Option (Int × Pos)) (p : Bool), o.map (fun r => mkReport now p r.1 r.2) = some e →
      e.type = .scroll ∨ e.type = .press ∨ e.type = .release := by
    intro o p ho
    cases o with
    | none => cases ho
    | some r =>
      simp only [Option.map_some, Option.some.injEq] at ho
      subst ho
      exact reportType_cases _ _
  unfold parseRaw at h
  simp only at h
  split at h
  · exact three _ _ h
  · split at h
    · unfold parseX10 x10Parse at h
      simp only at h
      split at h
      · cases h
      · split at h
        · simp only [Option.some.injEq] at h
          subst h
          exact reportType_cases _ _
        · cases h
    · split at h
      · exact three _ _ h
      · cases h

/-- Feed byte sequences to ParseSequence, oldest first, with the time of each. -/
def feed (p : Processor) : List (Int × List Nat) → List (Option (List Event)) × Processor
  | [] => ([], p)
  | s :: t => ((parseSequence s.1 p s.2).1 :: (feed (parseSequence s.1 p s.2).2 t).1,
      (feed (parseSequence s.1 p s.2).2 t).2)

/-- C30, full claim, for the terminal's SGR reports in mode 1002: press at (x0,y0), motion
reports (button code + 32) at the positions `moves`, release at the last position; if some move
reaches the threshold distance (2) from the start, a drag event is delivered, and if the
gesture ends there no click is. -/
def C30_drag_statement : Prop :=
  ∀ (x0 y0 x1 y1 : Nat), 2 ≤ ((x0 : Int) - x1).natAbs + ((y0 : Int) - y1).natAbs →
    let r := (feed Processor.new
      [(0, specSGR 0 x0 y0 true), (1, specSGR 32 x1 y1 true), (2, specSGR 0 x1 y1 false)]).1
    (∃ (es : List Event) (d : Event), some es ∈ r ∧ d ∈ es ∧ d.type = .drag) ∧
    ∀ (es : List Event) (c : Event), some es ∈ r → c ∈ es → c.type ≠ .click

theorem current_eq_start {p : Processor} (hp : p.drag.active = true → p.drag.current = p.drag.start)
    (ht : 0 < p.drag.threshold) : p.drag.isDrag = false := by
  unfold Drag.isDrag
  cases ha : p.drag.active with
  | false => rfl
  | true =>
    rw [hp ha, distance_eq]
    simp
    exact ht

/-- The facts about the processor that hold whatever bytes are parsed. -/
structure Still (p : Processor) : Prop where
  same : p.drag.active = true → p.drag.current = p.drag.start
  thr : 0 < p.drag.threshold

theorem parse_still {p : Processor} (hp : Still p) (now : Int) (s : List Nat) :
    Still (parseSequence now p s).2 ∧
    ∀ es, (parseSequence now p s).1 = some es → ∀ o ∈ es, o.type ≠ .drag ∧ o.type ≠ .motion := by
  unfold parseSequence
  cases hq : parseRaw now s with
  | none => exact ⟨hp, by intro es h; cases h⟩
  | some e =>
    have hd := current_eq_start hp.same hp.thr
    simp only [Option.elim]
    rcases parse_types now s e hq with ht | ht | ht
    · simp [Processor.process, ht]
      exact hp
    · simp [Processor.process, ht, Drag.press, Drag.begin]
      exact ⟨fun _ => rfl, hp.thr⟩
    · have hrel : (p.drag.release).1 = false ∧ ((p.drag.release).2.active = true → False) ∧
          (p.drag.release).2.threshold = p.drag.threshold := by
        unfold Drag.release
        cases ha : p.drag.active with
        | false => simp [ha]
        | true => simp [hd]
      obtain ⟨r1, r2, r3⟩ := hrel
      have hproc : p.process e = p.release e := by
        unfold Processor.process; rw [if_neg (by rw [ht]; decide), if_pos ht]
      rw [hproc]
      unfold Processor.release
      simp only [r1, Bool.not_false, if_true]
      refine ⟨⟨fun h => (r2 h).elim, by rw [show (⟨(p.clicks.detect e).2, p.drag.release.2⟩ : Processor).drag = p.drag.release.2 from rfl, r3]; exact hp.thr⟩, ?_⟩
      intro es hes o ho
      simp only [Option.some.injEq] at hes
      subst hes
      simp only [List.mem_append, Option.mem_toList, List.mem_singleton] at ho
      rcases ho with ho | ho
      · unfold Detector.detect at ho
        rw [if_neg (by simpa using ht)] at ho
        simp only [Option.mem_def, Option.some.injEq] at ho
        subst ho
        show (clickKind _).1 ≠ _ ∧ (clickKind _).1 ≠ _
        unfold clickKind
        (repeat' split) <;> decide
      · subst ho; rw [ht]; decide

/-- The parsers never produce motion events, so for EVERY sequence of byte strings given to
ParseSequence, no drag and no motion event is ever delivered and IsDragging is never true. -/
theorem C30_never_a_drag (ss : List (Int × List Nat)) : ∀ (p : Processor), Still p →
    (∀ es, some es ∈ (feed p ss).1 → ∀ o ∈ es, o.type ≠ .drag ∧ o.type ≠ .motion) ∧
    (feed p ss).2.isDragging = false := by
  induction ss with
  | nil =>
    intro p hp
    exact ⟨by intro es h; simp [feed] at h, current_eq_start hp.same hp.thr⟩
  | cons s t ih =>
    intro p hp
    obtain ⟨h1, h2⟩ := parse_still hp s.1 s.2
    obtain ⟨i1, i2⟩ := ih _ h1
    refine ⟨?_, i2⟩
    intro es hes
    simp only [feed, List.mem_cons] at hes
    rcases hes with hes | hes
    · exact h2 es hes.symm
    · exact i1 es hes

theorem still_new : Still Processor.new := ⟨(by intro h; cases h), by decide⟩

/-- C30 is false: the gesture yields no drag event at all ... -/
theorem C30_drag_refuted : ¬ C30_drag_statement := by
  intro h
  obtain ⟨⟨es, d, h1, h2, h3⟩, _⟩ := h 0 0 9 0 (by decide)
  exact ((C30_never_a_drag _ _ still_new).1 es h1 d h2).1 h3

/-- ... and the release at its end is reported as a click, for all coordinates. -/
theorem C30_gesture_ends_in_click_refuted (x0 y0 x1 y1 : Nat) :
    let r := (feed Processor.new
      [(0, specSGR 0 x0 y0 true), (1, specSGR 32 x1 y1 true), (2, specSGR 0 x1 y1 false)]).1
    r[2]? = some (some [⟨.click, .left, ⟨x1, y1⟩, ⟨false, false, false⟩, 2⟩,
      ⟨.release, .left, ⟨x1, y1⟩, ⟨false, false, false⟩, 2⟩]) ∧
    r[1]? = some (some [⟨.press, .none, ⟨x1, y1⟩, ⟨false, false, false⟩, 1⟩]) := by
  simp only [feed, parseSequence, parse_specSGR, Option.elim]
  have d0 : decodeButton ((0 : Nat) : Int) = (.left, ⟨false, false, false⟩) := by decide
  have d32 : decodeButton ((32 : Nat) : Int) = (.none, ⟨false, false, false⟩) := by decide
  simp only [mkReport, d0, d32]
  have hz : ∀ a : Pos, a.distanceTo a = 0 := by intro a; rw [distance_eq]; simp
  constructor
  · simp [Processor.process, reportType, Button.isWheel, Processor.release, Drag.release, Drag.press,
      Drag.begin, Drag.isDrag, Processor.new, Processor.withConfig, Detector.new, Drag.new, hz,
      Detector.detect, Detector.nextCount, clickKind]
  · simp [Processor.process, reportType, Button.isWheel]

/-! ## C32: hover -/

/-- The areas under the pointer, in the order given. -/
def Under (p : Pos) (a : Area) : Prop :=
  a.box.x ≤ p.x ∧ p.x < a.box.x + a.box.w ∧ a.box.y ≤ p.y ∧ p.y < a.box.y + a.box.h

/-- The component under the pointer: that of the first area containing it. -/
def Hit (p : Pos) (areas : List Area) (id : String) : Prop :=
  ∃ l a r, areas = l ++ a :: r ∧ a.id = id ∧ Under p a ∧ ∀ b ∈ l, ¬ Under p b

theorem contains_iff (p : Pos) (a : Area) : a.box.contains p = true ↔ Under p a := by
  unfold Box.contains Under
  simp only [Bool.and_eq_true, decide_eq_true_eq, ge_iff_le]
  constructor
  · rintro ⟨⟨⟨a, b⟩, c⟩, d⟩; exact ⟨a, b, c, d⟩
  · rintro ⟨a, b, c, d⟩; exact ⟨⟨⟨a, b⟩, c⟩, d⟩

/-- The loop of Update finds the first area containing the pointer. -/
theorem hoveredId_spec (p : Pos) (areas : List Area) :
    (Hit p areas (hoveredId p areas)) ∨ (hoveredId p areas = "" ∧ ∀ a ∈ areas, ¬ Under p a) := by
  induction areas with
  | nil => exact Or.inr ⟨rfl, by intro a h; cases h⟩
  | cons a t ih =>
    rw [hoveredId]
    by_cases h : a.box.contains p = true
    · rw [if_pos h]
      exact Or.inl ⟨[], a, t, rfl, rfl, (contains_iff p a).1 h, by intro b hb; cases hb⟩
    · rw [if_neg h]
      have hn : ¬ Under p a := fun x => h ((contains_iff p a).2 x)
      rcases ih with ⟨l, b, r, h1, h2, h3, h4⟩ | ⟨h1, h2⟩
      · refine Or.inl ⟨a :: l, b, r, by rw [h1]; rfl, h2, h3, ?_⟩
        intro c hc
        simp only [List.mem_cons] at hc
        rcases hc with hc | hc
        · subst hc; exact hn
        · exact h4 c hc
      · refine Or.inr ⟨h1, ?_⟩
        intro c hc
        simp only [List.mem_cons] at hc
        rcases hc with hc | hc
        · subst hc; exact hn
        · exact h2 c hc

theorem hit_unique {p : Pos} {areas : List Area} {i j : String} (h1 : Hit p areas i) (h2 : Hit p areas j) :
    i = j := by
  obtain ⟨l, a, r, e1, e2, e3, e4⟩ := h1
  obtain ⟨l', a', r', f1, f2, f3, f4⟩ := h2
  subst e2 f2
  rw [e1] at f1
  clear e1 areas
  induction l generalizing l' with
  | nil =>
    cases l' with
    | nil => simp at f1; rw [f1.1]
    | cons b t => simp at f1; exact absurd e3 (f1.1 ▸ f4 b (by simp))
  | cons b t ih =>
    cases l' with
    | nil => simp at f1; exact absurd f3 (f1.1 ▸ e4 b (by simp))
    | cons b' t' =>
      simp at f1
      exact ih (fun c hc => e4 c (List.mem_cons_of_mem _ hc)) t' f1.2 (fun c hc => f4 c (List.mem_cons_of_mem _ hc))

/-- Reachable tracker states: active exactly when a component is tracked. -/
def Hover.Ok (h : Hover) : Prop := h.active = true ↔ h.id ≠ ""

/-- Run the tracker. -/
def Hover.run (h : Hover) : List (Pos × List Area) → List EventType × Hover
  | [] => ([], h)
  | s :: t => ((h.step s.1 s.2).1 :: ((h.step s.1 s.2).2.run t).1, ((h.step s.1 s.2).2.run t).2)

/-- Every component has a non-empty ID. -/
def Named (areas : List Area) : Prop := ∀ a ∈ areas, a.id ≠ ""

theorem step_spec {h : Hover} (hok : h.Ok) (p : Pos) (areas : List Area) :
    (h.step p areas).2.Ok ∧ (h.step p areas).2.id = hoveredId p areas ∧
    (h.step p areas).1 =
      (if hoveredId p areas = "" then (if h.id = "" then .motion else .hoverLeave)
       else if hoveredId p areas = h.id then .hoverMove else .hoverEnter) := by
  obtain ⟨id, pos, act⟩ := h
  unfold Hover.Ok at hok ⊢
  simp only at hok
  unfold Hover.step Hover.isHovering
  simp only
  by_cases h1 : hoveredId p areas = ""
  · rw [if_pos h1, if_pos h1]
    by_cases h2 : id = ""
    · have : act = false := by
        cases act with
        | false => rfl
        | true => exact absurd h2 (hok.1 rfl)
      subst this
      subst h2
      simp [h1]
    · have : act = true := hok.2 h2
      subst this
      simp [h1, h2, Hover.leave]
  · rw [if_neg h1, if_neg h1]
    by_cases h2 : id = ""
    · have : act = false := by
        cases act with
        | false => rfl
        | true => exact absurd h2 (hok.1 rfl)
      subst this
      subst h2
      simp [h1, Hover.enter]
    · have : act = true := hok.2 h2
      subst this
      by_cases h3 : hoveredId p areas = id
      · simp [h3, h2, Hover.move]
      · simp [h1, h2, h3, Hover.enter]

theorem run_ok (ss : List (Pos × List Area)) : ∀ h : Hover, h.Ok → (h.run ss).2.Ok := by
  induction ss with
  | nil => intro h hh; exact hh
  | cons s t ih => intro h hh; exact ih _ (step_spec hh s.1 s.2).1

theorem new_ok : Hover.new.Ok := by unfold Hover.Ok Hover.new; simp

/-- C32.  After any history, for components with non-empty IDs, one update at pointer position
`p` with areas `areas` leaves the tracked component equal to that of the first area containing
`p` (none if there is no such area), and returns: Enter exactly when the tracked component
changed to another component, Leave exactly when it changed to none, Move when it stayed the
same component and Motion when there was and is none. -/
theorem C32_hover_step (ss : List (Pos × List Area)) (p : Pos) (areas : List Area)
    (hn : Named areas) :
    let h := (Hover.new.run ss).2
    let r := h.step p areas
    (∀ i, Hit p areas i → r.2.id = i ∧ r.2.isHovering = true ∧
      r.1 = (if h.id = i then .hoverMove else .hoverEnter)) ∧
    ((∀ a ∈ areas, ¬ Under p a) → r.2.id = "" ∧ r.2.isHovering = false ∧
      r.1 = (if h.id = "" then .motion else .hoverLeave)) := by
  intro h r
  have hok : h.Ok := run_ok ss _ new_ok
  obtain ⟨k1, k2, k3⟩ := step_spec hok p areas
  constructor
  · intro i hi
    have hid : hoveredId p areas = i := by
      rcases hoveredId_spec p areas with hh | ⟨_, hh⟩
      · exact hit_unique hh hi
      · obtain ⟨l, a, t, e1, _, e3, _⟩ := hi
        exact absurd e3 (hh a (by rw [e1]; simp))
    have hne : i ≠ "" := by
      obtain ⟨l, a, t, e1, e2, _, _⟩ := hi
      subst e2
      exact hn a (by rw [e1]; simp)
    refine ⟨k2.trans hid, ?_, ?_⟩
    · show (r.2.active && r.2.id != "") = true
      have e : r.2.id = i := k2.trans hid
      have : r.2.active = true := k1.2 (by show r.2.id ≠ ""; rw [e]; exact hne)
      rw [this, e]; simpa using hne
    · show (h.step p areas).1 = _
      rw [k3, hid, if_neg hne]
      by_cases e : i = h.id
      · rw [if_pos e, if_pos e.symm]
      · rw [if_neg e, if_neg (fun x => e x.symm)]
  · intro hno
    have hid : hoveredId p areas = "" := by
      rcases hoveredId_spec p areas with ⟨l, a, t, e1, _, e3, _⟩ | ⟨hh, _⟩
      · exact absurd e3 (hno a (by rw [e1]; simp))
      · exact hh
    refine ⟨k2.trans hid, ?_, ?_⟩
    · show (r.2.active && r.2.id != "") = false
      have e : r.2.id = "" := k2.trans hid
      rw [e]; simp
    · show (h.step p areas).1 = _
      rw [k3, hid, if_pos rfl]

/-- Enter and Leave events of a list, in order. -/
def crossings (l : List EventType) : List EventType :=
  l.filter fun t => decide (t = .hoverEnter) || decide (t = .hoverLeave)

/-- Strict alternation starting with `first`. -/
def Alternates : EventType → List EventType → Prop
  | _, [] => True
  | t, x :: xs => x = t ∧ Alternates (if t = .hoverEnter then .hoverLeave else .hoverEnter) xs

theorem alternates_run (a : Area) (ha : a.id ≠ "") : ∀ (ps : List Pos) (h : Hover), h.Ok → (h.id = "" ∨ h.id = a.id) →
    Alternates (if h.id = "" then .hoverEnter else .hoverLeave)
      (crossings (h.run (ps.map fun p => (p, [a]))).1) := by
  intro ps
  induction ps with
  | nil => intro h _ _; exact trivial
  | cons p t ih =>
    intro h hok hid
    obtain ⟨k1, k2, k3⟩ := step_spec hok p [a]
    have hh : hoveredId p [a] = "" ∨ hoveredId p [a] = a.id := by
      rw [hoveredId]; split
      · exact Or.inr rfl
      · exact Or.inl rfl
    have hi := ih (h.step p [a]).2 k1 (by rw [k2]; exact hh)
    rw [k2] at hi
    simp only [List.map_cons, Hover.run, crossings, List.filter_cons]
    rw [k3]
    rcases hh with hh | hh <;> rcases hid with hid | hid
    · simp [hh, hid] at hi ⊢; exact hi
    · simp [hh, hid, ha] at hi ⊢; exact ⟨rfl, hi⟩
    · simp [hh, hid, ha] at hi ⊢; exact ⟨rfl, hi⟩
    · simp [hh, hid, ha] at hi ⊢; exact hi

/-- C32.  With a single area Enter and Leave strictly alternate, beginning with Enter, for every
sequence of pointer positions. -/
theorem C32_single_area_alternates (a : Area) (ha : a.id ≠ "") (ps : List Pos) :
    Alternates .hoverEnter (crossings (Hover.new.run (ps.map fun p => (p, [a]))).1) :=
  alternates_run a ha ps Hover.new new_ok (Or.inl rfl)
-- two areas that overlap
example := C32_hover_step [(⟨0, 0⟩, [])] ⟨2, 2⟩ [⟨"a", ⟨0, 0, 5, 5⟩⟩, ⟨"b", ⟨2, 2, 5, 5⟩⟩] (by simp [Named])
example := C32_single_area_alternates ⟨"a", ⟨0, 0, 5, 5⟩⟩ (by decide) [⟨1, 1⟩, ⟨9, 9⟩, ⟨2, 2⟩]


/-- With several areas the alternation claim ... -/
def C32_alternation_statement : Prop :=
  ∀ (areas : List Area), Named areas → ∀ ps : List Pos,
    Alternates .hoverEnter (crossings (Hover.new.run (ps.map fun p => (p, areas))).1)

/-- ... is false: moving from one component straight to another gives Enter, Enter with no Leave
for the first. -/
theorem C32_alternation_refuted : ¬ C32_alternation_statement := by
  intro h
  have := h [⟨"a", ⟨0, 0, 1, 1⟩⟩, ⟨"b", ⟨1, 0, 1, 1⟩⟩] (by unfold Named; decide) [⟨0, 0⟩, ⟨1, 0⟩]
  have e : crossings (Hover.new.run (([⟨0, 0⟩, ⟨1, 0⟩] : List Pos).map fun p =>
      (p, [⟨"a", ⟨0, 0, 1, 1⟩⟩, ⟨"b", ⟨1, 0, 1, 1⟩⟩]))).1 = [.hoverEnter, .hoverEnter] := by decide
  rw [e] at this
  have h2 := this.2.1
  simp at h2

/-! ## C33: the context menu -/

/-- C33, on each axis, for a cursor on the screen: the menu lies inside the screen if it fits
there, and its position is the cursor's whenever that already keeps it inside; if the menu is
too large on either axis it is put at the origin. -/
theorem C33_menu_on_screen (c : Pos) (mw mh sw sh : Int) (hm : 0 ≤ mw) (hm2 : 0 ≤ mh)
    (hx : 0 ≤ c.x ∧ c.x < sw) (hy : 0 ≤ c.y ∧ c.y < sh) :
    let p := menuPosition c mw mh sw sh
    (0 ≤ p.x ∧ 0 ≤ p.y) ∧
    (mw ≤ sw → p.x + mw ≤ sw) ∧ (mh ≤ sh → p.y + mh ≤ sh) ∧
    (mw > sw → p.x = 0) ∧ (mh > sh → p.y = 0) ∧
    (mw ≤ sw → mh ≤ sh → c.x + mw ≤ sw → p.x = c.x) ∧
    (mw ≤ sw → mh ≤ sh → c.y + mh ≤ sh → p.y = c.y) ∧
    -- the shift is minimal
    (mw ≤ sw → mh ≤ sh → c.x + mw > sw → p.x + mw = sw) ∧
    (mw ≤ sw → mh ≤ sh → c.y + mh > sh → p.y + mh = sh) := by
  simp only [menuPosition]
  rw [if_neg (show ¬ mw < 0 by omega), if_neg (show ¬ mh < 0 by omega),
    if_neg (show ¬ sw < 0 by omega), if_neg (show ¬ sh < 0 by omega)]
  by_cases hbig : mw > sw ∨ mh > sh
  · rw [if_pos hbig]; simp only; refine ⟨by omega, ?_, ?_, ?_, ?_, ?_, ?_, ?_, ?_⟩ <;> intros <;> first | trivial | omega
  · rw [if_neg hbig]
    simp only
    refine ⟨⟨?_, ?_⟩, ?_, ?_, ?_, ?_, ?_, ?_, ?_, ?_⟩ <;> (repeat' split) <;> omega

example : menuPosition ⟨75, 3⟩ 10 5 80 24 = ⟨70, 3⟩ := by decide

/-! ## C34: mouse modes of the terminal -/

/-- A terminal's parser for private mode sequences `ESC [ ? n h|l`. -/
inductive Esc | ground | esc | csi | priv (n : Nat)
  deriving DecidableEq, Repr

/-- The terminal: parser state and the private modes that are on. -/
structure Term where
  st : Esc
  on : Nat → Bool

/-- One byte arrives. -/
def Term.byte (t : Term) (b : Nat) : Term :=
  match t.st with
  | .ground => if b = 27 then { t with st := .esc } else t
  | .esc => if b = 91 then { t with st := .csi } else { t with st := .ground }
  | .csi => if b = 63 then { t with st := .priv 0 } else { t with st := .ground }
  | .priv n =>
    if 48 ≤ b ∧ b ≤ 57 then { t with st := .priv (n * 10 + (b - 48)) }
    else if b = 104 then ⟨.ground, fun m => if m = n then true else t.on m⟩
    else if b = 108 then ⟨.ground, fun m => if m = n then false else t.on m⟩
    else { t with st := .ground }

/-- The terminal after the bytes `l`, starting with no mode on. -/
def terminal (l : List Nat) : Term := l.foldl Term.byte ⟨.ground, fun _ => false⟩

theorem digits_priv (ds : List Nat) : ∀ (a : Nat) (on : Nat → Bool), (∀ b ∈ ds, Dec.isDigit b = true) →
    ds.foldl Term.byte ⟨.priv a, on⟩ = ⟨.priv (ds.foldl (fun a b => a * 10 + (b - 48)) a), on⟩ := by
  induction ds with
  | nil => intro a on _; rfl
  | cons d t ih =>
    intro a on h
    have hd := h d (by simp)
    unfold Dec.isDigit at hd
    simp only [Bool.and_eq_true, decide_eq_true_eq] at hd
    simp only [List.foldl_cons]
    have : Term.byte ⟨.priv a, on⟩ d = ⟨.priv (a * 10 + (d - 48)), on⟩ := by
      simp [Term.byte, hd]
    rw [this, ih _ on (fun b hb => h b (by simp [hb]))]

theorem modeSeq_feed (m : Nat) (b : Bool) (on : Nat → Bool) :
    (modeSeq m b).foldl Term.byte ⟨.ground, on⟩ = ⟨.ground, fun k => if k = m then b else on k⟩ := by
  unfold modeSeq
  have e : [27, 91, 63] ++ Dec.nat m ++ [if b then 104 else 108]
      = 27 :: 91 :: 63 :: (Dec.nat m ++ [if b then 104 else 108]) := rfl
  rw [e]
  simp only [List.foldl_cons, List.foldl_append, List.foldl_nil]
  have s : Term.byte (Term.byte (Term.byte ⟨.ground, on⟩ 27) 91) 63 = ⟨.priv 0, on⟩ := rfl
  rw [s, digits_priv _ _ _ (Dec.nat_digits m), Dec.nat, Dec.digitsAux_value _ _ (by omega)]
  cases b <;> rfl

theorem terminal_append (a b : List Nat) : terminal (a ++ b) = b.foldl Term.byte (terminal a) := by
  unfold terminal; rw [List.foldl_append]

/-- Calls of the public API, with the result of each write to stdout (`none` = written
completely, `some k` = failed after k bytes). -/
inductive MouseOp
  | enable (r1 r2 r3 : Option Nat)
  | disable (r : Option Nat)

/-- A failing write delivers nothing (the usual behaviour for these few bytes). -/
def Clean (r : Option Nat) : Prop := r = none ∨ r = some 0

def MouseOp.CleanWrites : MouseOp → Prop
  | .enable r1 r2 r3 => Clean r1 ∧ Clean r2 ∧ Clean r3
  | .disable r => Clean r

def TermMode.apply (t : TermMode) : MouseOp → Bool × TermMode
  | .enable r1 r2 r3 => t.enableAll r1 r2 r3
  | .disable r => t.disableAll r

def TermMode.run (t : TermMode) : List MouseOp → TermMode
  | [] => t
  | o :: os => TermMode.run (t.apply o).2 os

/-- Invariant of the public API. -/
structure TermMode.Ok (t : TermMode) : Prop where
  ground : (terminal t.out).st = .ground
  mode : t.mode = 1006
  off : t.enabled = false → ∀ m, (terminal t.out).on m = false
  only : ∀ m, (terminal t.out).on m = true → m = 1006 ∨ m = 1002

theorem write_seq {t : TermMode} (hg : (terminal t.out).st = .ground) (m : Nat) (b : Bool) :
    terminal (t.out ++ modeSeq m b) = ⟨.ground, fun k => if k = m then b else (terminal t.out).on k⟩ := by
  rw [terminal_append]
  have : terminal t.out = ⟨.ground, (terminal t.out).on⟩ := by rw [← hg]
  rw [this, modeSeq_feed]

theorem feed_two (on : Nat → Bool) (m n : Nat) (b c : Bool) :
    (modeSeq m b ++ modeSeq n c).foldl Term.byte ⟨.ground, on⟩
      = ⟨.ground, fun k => if k = n then c else if k = m then b else on k⟩ := by
  rw [List.foldl_append, modeSeq_feed, modeSeq_feed]

theorem write_two {t : TermMode} (hg : (terminal t.out).st = .ground) (m n : Nat) (b c : Bool) :
    terminal (t.out ++ (modeSeq m b ++ modeSeq n c))
      = ⟨.ground, fun k => if k = n then c else if k = m then b else (terminal t.out).on k⟩ := by
  rw [terminal_append]
  have : terminal t.out = ⟨.ground, (terminal t.out).on⟩ := by rw [← hg]
  rw [this, feed_two]

theorem clean_append {k : Nat} (h : Clean (some k)) (out s : List Nat) : out ++ s.take k = out := by
  rcases h with h | h
  · cases h
  · cases h; simp

theorem disable_ok {t : TermMode} (h : t.Ok) {r1 r2 : Option Nat} (c1 : Clean r1) (c2 : Clean r2) :
    (t.disable r1 r2).2.Ok ∧ ((t.disable r1 r2).1 = true → (t.disable r1 r2).2.enabled = false) := by
  obtain ⟨en, mode, out⟩ := t
  obtain ⟨g, hm, hoff, honly⟩ := h
  simp only at hm
  subst hm
  cases en with
  | false => exact ⟨⟨g, rfl, hoff, honly⟩, fun _ => rfl⟩
  | true =>
    have w1 := write_seq (t := ⟨true, 1006, out⟩) g 1006 false
    simp only at w1 g honly
    have g1 : (terminal (out ++ modeSeq 1006 false)).st = .ground := by rw [w1]
    have o1 : ∀ k, (terminal (out ++ modeSeq 1006 false)).on k = if k = 1006 then false else (terminal out).on k := by
      intro k; rw [w1]
    have w2 := write_seq (t := ⟨true, 1006, out ++ modeSeq 1006 false⟩) g1 1002 false
    simp only at w2
    have g2 : (terminal ((out ++ modeSeq 1006 false) ++ modeSeq 1002 false)).st = .ground := by rw [w2]
    have o2 : ∀ k, (terminal ((out ++ modeSeq 1006 false) ++ modeSeq 1002 false)).on k = if k = 1002 then false else (terminal (out ++ modeSeq 1006 false)).on k := by
      intro k; rw [w2]
    cases r1 with
    | some k =>
      have : (TermMode.disable ⟨true, 1006, out⟩ (some k) r2) = (false, ⟨true, 1006, out⟩) := by
        simp only [TermMode.disable, TermMode.write, Bool.not_true, Bool.false_eq_true, if_false, Bool.not_false, if_true]
        rw [clean_append c1]
      rw [this]
      exact ⟨⟨g, rfl, (by intro h; cases h), honly⟩, (by intro h; cases h)⟩
    | none =>
      cases r2 with
      | some k =>
        have : (TermMode.disable ⟨true, 1006, out⟩ none (some k)) = (false, ⟨true, 1006, out ++ modeSeq 1006 false⟩) := by
          simp only [TermMode.disable, TermMode.write, Bool.not_true, Bool.false_eq_true, if_false, Bool.not_false, if_true]
          rw [clean_append c2]
        rw [this]
        refine ⟨⟨g1, rfl, (by intro h; cases h), ?_⟩, (by intro h; cases h)⟩
        intro m hmm
        rw [show (⟨true, 1006, out ++ modeSeq 1006 false⟩ : TermMode).out = out ++ modeSeq 1006 false from rfl, o1] at hmm
        split at hmm
        · cases hmm
        · exact honly m hmm
      | none =>
        have : (TermMode.disable ⟨true, 1006, out⟩ none none) = (true, ⟨false, 1006, (out ++ modeSeq 1006 false) ++ modeSeq 1002 false⟩) := by
          simp only [TermMode.disable, TermMode.write, Bool.not_true, Bool.false_eq_true, if_false, Bool.not_false, if_true]
        rw [this]
        have hall : ∀ m, (terminal ((out ++ modeSeq 1006 false) ++ modeSeq 1002 false)).on m = false := by
          intro m
          rw [o2, o1]
          split
          · rfl
          · split
            · rfl
            · rename_i n1 n2
              cases hx : (terminal out).on m with
              | false => rfl
              | true => rcases honly m hx with e | e
                        · exact absurd e n2
                        · exact absurd e n1
        refine ⟨⟨g2, rfl, fun _ => hall, ?_⟩, fun _ => rfl⟩
        intro m hmm
        rw [hall m] at hmm; cases hmm

theorem disableAll_ok {t : TermMode} (h : t.Ok) {r : Option Nat} (c : Clean r) :
    (t.disableAll r).2.Ok ∧ ((t.disableAll r).1 = true → (t.disableAll r).2.enabled = false) := by
  obtain ⟨en, mode, out⟩ := t
  obtain ⟨g, hm, hoff, honly⟩ := h
  simp only at hm
  subst hm
  cases en with
  | false => exact ⟨⟨g, rfl, hoff, honly⟩, fun _ => rfl⟩
  | true =>
    have w := write_two (t := ⟨true, 1006, out⟩) g 1006 1002 false false
    simp only at w g honly
    cases r with
    | some k =>
      have : (TermMode.disableAll ⟨true, 1006, out⟩ (some k)) = (false, ⟨true, 1006, out⟩) := by
        simp only [TermMode.disableAll, TermMode.write, Bool.not_true, Bool.false_eq_true, if_false, Bool.not_false, if_true]
        rw [clean_append c]
      rw [this]
      exact ⟨⟨g, rfl, (by intro h; cases h), honly⟩, (by intro h; cases h)⟩
    | none =>
      have : (TermMode.disableAll ⟨true, 1006, out⟩ none) = (true, ⟨false, 1006, out ++ disableAllSeq⟩) := by
        simp only [TermMode.disableAll, TermMode.write, Bool.not_true, Bool.false_eq_true, if_false]
      rw [this]
      have hall : ∀ m, (terminal (out ++ disableAllSeq)).on m = false := by
        intro m
        unfold disableAllSeq
        rw [w]
        simp only
        split
        · rfl
        · split
          · rfl
          · rename_i n1 n2
            cases hx : (terminal out).on m with
            | false => rfl
            | true => rcases honly m hx with e | e
                      · exact absurd e n2
                      · exact absurd e n1
      refine ⟨⟨?_, rfl, fun _ => hall, ?_⟩, fun _ => rfl⟩
      · show (terminal (out ++ disableAllSeq)).st = .ground
        unfold disableAllSeq; rw [w]
      · intro m hmm
        rw [show (⟨false, 1006, out ++ disableAllSeq⟩ : TermMode).out = out ++ disableAllSeq from rfl, hall m] at hmm
        cases hmm

theorem enableAll_ok {t : TermMode} (h : t.Ok) {r1 r2 r3 : Option Nat} (c1 : Clean r1) (c2 : Clean r2)
    (c3 : Clean r3) : (t.enableAll r1 r2 r3).2.Ok := by
  have hd : (if t.enabled then t.disable r1 r2 else (true, t)).2.Ok ∧
      ((if t.enabled then t.disable r1 r2 else (true, t)).1 = true →
        (if t.enabled then t.disable r1 r2 else (true, t)).2.enabled = false) := by
    cases he : t.enabled with
    | true => simpa using disable_ok h c1 c2
    | false => simpa using ⟨h, he⟩
  unfold TermMode.enableAll
  generalize (if t.enabled then t.disable r1 r2 else (true, t)) = d at hd ⊢
  obtain ⟨okb, d⟩ := d
  simp only at hd ⊢
  obtain ⟨hok, hdis⟩ := hd
  cases okb with
  | false => simpa using hok
  | true =>
    simp only [Bool.not_true, Bool.false_eq_true, if_false]
    cases r3 with
    | some k =>
      simp only [TermMode.write, Bool.not_false, if_true]
      rw [clean_append c3]
      exact hok
    | none =>
      simp only [TermMode.write, Bool.not_true, Bool.false_eq_true, if_false]
      have w := write_two (t := d) hok.ground 1006 1002 true true
      refine ⟨?_, rfl, (by intro h; cases h), ?_⟩
      · show (terminal (d.out ++ enableAllSeq)).st = .ground
        unfold enableAllSeq; rw [w]
      · intro m hm
        rw [show (⟨true, 1006, d.out ++ enableAllSeq⟩ : TermMode).out = d.out ++ enableAllSeq from rfl] at hm
        unfold enableAllSeq at hm
        rw [w] at hm
        simp only at hm
        split at hm
        · exact Or.inr (by assumption)
        · split at hm
          · exact Or.inl (by assumption)
          · exact hok.only m hm

theorem run_mode_ok (ops : List MouseOp) : ∀ t : TermMode, t.Ok → (∀ o ∈ ops, o.CleanWrites) →
    (t.run ops).Ok := by
  induction ops with
  | nil => intro t h _; exact h
  | cons o os ih =>
    intro t h hc
    refine ih _ ?_ (fun o ho => hc o (by simp [ho]))
    have ho := hc o (by simp)
    cases o with
    | enable r1 r2 r3 => exact enableAll_ok h ho.1 ho.2.1 ho.2.2
    | disable r => exact (disableAll_ok h ho).1

/-- C34 for the public API: after any sequence of Enable and Disable calls, any of whose writes
to the terminal may fail (delivering nothing), whenever a final Disable reports success the
terminal has no private mode on - in particular no mouse tracking and no extended coordinates. -/
theorem C34_disable_leaves_no_mode (ops : List MouseOp) (hc : ∀ o ∈ ops, o.CleanWrites)
    (r : Option Nat) (hr : Clean r) :
    let t := TermMode.new.run ops
    (t.disableAll r).1 = true → ∀ m, (terminal (t.disableAll r).2.out).on m = false := by
  intro t ht
  have hnew : TermMode.new.Ok := ⟨rfl, rfl, fun _ _ => rfl, by intro m h; cases h⟩
  have hok : t.Ok := run_mode_ok ops _ hnew hc
  obtain ⟨k1, k2⟩ := disableAll_ok hok hr
  exact k1.off (k2 ht)

/-- Enable does turn the modes on (the theorem above is not vacuous). -/
example : (terminal (TermMode.new.run [.enable none none none]).out).on 1006 = true ∧
    (terminal (TermMode.new.run [.enable none none none]).out).on 1002 = true := by decide

/-- C34, full claim: also when a failing write has delivered part of the sequence, and for the
internal Enable(mode). -/
def C34_partial_write_statement : Prop :=
  ∀ (ops : List MouseOp), let t := TermMode.new.run ops
    (t.disableAll none).1 = true → ∀ m, (terminal (t.disableAll none).2.out).on m = false

/-- An Enable whose write fails after the first mode sequence leaves SGR mode on, and Disable
then does nothing. -/
theorem C34_partial_write_refuted : ¬ C34_partial_write_statement := by
  intro h
  have := h [.enable none none (some 8)] (by decide) 1006
  revert this
  decide

/-- Internal API: Enable(ModeAnyMotion) followed by DisableAll leaves any-motion tracking on. -/
theorem C34_enable_mode_disable_all_refuted :
    let t := (TermMode.new.enable 1003 none none none none).2
    (t.disableAll none).1 = true ∧ (terminal (t.disableAll none).2.out).on 1003 = true := by
  decide

/-- Internal API: Enable(ModeSGR) whose second write fails returns an error and forgets that
SGR mode is on: Disable does nothing. -/
theorem C34_half_enabled_refuted :
    let t := (TermMode.new.enable 1006 none none none (some 0)).2
    (t.disable none none).1 = true ∧ (terminal (t.disable none none).2.out).on 1006 = true := by
  decide

/-! ## C87: which button a report names; scroll amounts -/

/-- The button number of a report code: the code without its modifier bits (4, 8, 16) and its
motion bit (32). -/
def buttonNumber (code : Nat) : Nat := code % 4 + 64 * (code / 64)

/-- Buttons by number. -/
def specDecode (n : Nat) : Button :=
  if n = 0 then .left else if n = 1 then .middle else if n = 2 then .right
  else if n = 64 then .wheelUp else if n = 65 then .wheelDown else .none

/-- C87, full claim: a non-motion report is decoded to the button it names. -/
def C87_button_statement : Prop :=
  ∀ (now : Int) (code x y : Nat) (down : Bool), code / 32 % 2 = 0 → code < 256 →
    (parseRaw now (specSGR code x y down)).map (·.button) = some (specDecode (buttonNumber code))

theorem decode_all : ∀ code : Fin 128, (code : Nat) / 32 % 2 = 0 →
    (decodeButton ((code : Nat) : Int)) = (specDecode (buttonNumber code),
      ⟨decide ((code : Nat) / 4 % 2 = 1), decide ((code : Nat) / 16 % 2 = 1), decide ((code : Nat) / 8 % 2 = 1)⟩) := by
  decide +kernel

/-- C87 for codes below 128 (buttons 1-7): button and modifiers are those of the code, at every
position. -/
theorem C87_button_partial (now : Int) (code x y : Nat) (down : Bool) (hm : code / 32 % 2 = 0)
    (hc : code < 128) :
    ∃ e, parseRaw now (specSGR code x y down) = some e ∧
      e.button = specDecode (buttonNumber code) ∧ e.pos = ⟨x, y⟩ ∧
      e.mods = ⟨decide (code / 4 % 2 = 1), decide (code / 16 % 2 = 1), decide (code / 8 % 2 = 1)⟩ := by
  refine ⟨_, parse_specSGR now code x y down, ?_⟩
  have := decode_all ⟨code, hc⟩ hm
  simp only at this
  unfold mkReport
  simp only [this]
  exact ⟨trivial, trivial, trivial⟩
example := C87_button_partial 7 (64 + 4 + 1) 10 20 true (by decide) (by decide)


/-- The extra ("back"/"forward") mouse buttons, codes 128 to 131, are decoded as left, middle and
right: pressing "back" anywhere looks like a left press. -/
theorem C87_button_refuted : ¬ C87_button_statement := by
  intro h
  have := h 0 128 0 0 true (by decide) (by decide)
  rw [parse_specSGR] at this
  revert this
  decide

/-- C87 (scrolling): at every position and with every modifier, the report of one wheel notch up
scrolls by minus the configured number of lines (three if not positive), one notch down by plus
that number, and a press or release by nothing. -/
theorem C87_scroll_delta (n now : Int) (m : Mods) (x y : Nat) (down : Bool) (b : Button) (hb : b ≠ .none) :
    (parseRaw now (specSGR (specCode b m) x y down)).map (scrollDelta (linesPerScroll n))
      = some (if b = .wheelUp then -(if 0 < n then n else 3) else if b = .wheelDown then (if 0 < n then n else 3) else 0) := by
  rw [C27_sgr_round_trip now b hb m x y down]
  have hl : linesPerScroll n = if 0 < n then n else 3 := by
    unfold linesPerScroll; split <;> split <;> omega
  rw [hl]
  simp only [Option.map_some, Option.some.injEq]
  cases b <;> cases down <;> simp_all [scrollDelta]
example := C87_scroll_delta 5 7 ⟨false, true, false⟩ 10 20 true .wheelDown (by decide)


/-! ## C88: overlapping boxes -/

/-- A cell lies in a box. -/
def Cell (b : Box) (p : Pos) : Prop := b.x ≤ p.x ∧ p.x < b.x + b.w ∧ b.y ≤ p.y ∧ p.y < b.y + b.h

/-- C88, full claim: Overlaps holds iff some cell lies in both boxes. -/
def C88_overlap_statement : Prop :=
  ∀ x y w h x' y' w' h' : Int,
    (Box.new x y w h).overlaps (Box.new x' y' w' h') = true ↔
      ∃ p, Cell (Box.new x y w h) p ∧ Cell (Box.new x' y' w' h') p

/-- C88 for boxes that contain at least one cell. -/
theorem C88_overlap_partial (b o : Box) (h1 : 0 < b.w) (h2 : 0 < b.h) (h3 : 0 < o.w) (h4 : 0 < o.h) :
    b.overlaps o = true ↔ ∃ p, Cell b p ∧ Cell o p := by
  unfold Box.overlaps Cell
  simp only [Bool.and_eq_true, decide_eq_true_eq]
  constructor
  · rintro ⟨⟨⟨a1, a2⟩, a3⟩, a4⟩
    refine ⟨⟨if b.x < o.x then o.x else b.x, if b.y < o.y then o.y else b.y⟩, ?_, ?_⟩ <;>
      refine ⟨?_, ?_, ?_, ?_⟩ <;> simp only <;> split <;> omega
  · rintro ⟨p, ⟨a1, a2, a3, a4⟩, b1, b2, b3, b4⟩
    omega
example := (C88_overlap_partial ⟨0, 0, 4, 4⟩ ⟨3, 3, 4, 4⟩ (by decide) (by decide) (by decide) (by decide)).1 (by decide)


/-- It is symmetric for all boxes. -/
theorem C88_overlap_symmetric (b o : Box) : b.overlaps o = o.overlaps b := by
  unfold Box.overlaps
  rw [Bool.eq_iff_iff]
  simp only [Bool.and_eq_true, decide_eq_true_eq]
  omega

/-- An empty box inside another one counts as overlapping it. -/
theorem C88_overlap_refuted : ¬ C88_overlap_statement := by
  intro h
  obtain ⟨p, h1, _⟩ := (h 2 2 0 0 0 0 5 5).1 (by decide)
  unfold Cell at h1
  simp [Box.new] at h1
  omega

/-- Contains is membership of the cell. -/
theorem C88_contains (b : Box) (p : Pos) : b.contains p = true ↔ Cell b p := contains_iff p ⟨"", b⟩

end Phoenix.Mouse
