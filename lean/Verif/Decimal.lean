import Verif.Util
/-
Decimal numbers as ASCII bytes: `fmt.Sprintf("%d", n)`, `strconv.Atoi` and `strings.Split` of
the Go standard library (shared by several models).
-/
namespace Phoenix.Dec

/-- Digits of n, most significant first; `fuel` bounds their number. -/
def digitsAux : Nat → Nat → List Nat
  | 0, _ => []
  | f + 1, n => if n < 10 then [48 + n] else digitsAux f (n / 10) ++ [48 + n % 10]

/-- `%d` for a natural number. -/
def nat (n : Nat) : List Nat := digitsAux (n + 1) n

/-- `%d` / strconv.Itoa. -/
def int : Int → List Nat
  | .ofNat n => nat n
  | .negSucc n => 45 :: nat (n + 1)

/-- An ASCII digit. -/
def isDigit (b : Nat) : Bool := 48 ≤ b && b ≤ 57

/-- Value of a non-empty list of digits. -/
def parseNat (l : List Nat) : Option Nat :=
  if l.isEmpty || !l.all isDigit then none else some (l.foldl (fun a b => a * 10 + (b - 48)) 0)

/-- strconv.Atoi: optional sign and digits; `none` = error.  Simplification: numbers outside
the 64-bit range (an error in Go) are not treated specially. -/
def atoi (l : List Nat) : Option Int :=
  if l.head? = some 45 then (parseNat l.tail).map (fun n : Nat => -(n : Int))
  else if l.head? = some 43 then (parseNat l.tail).map (fun n : Nat => (n : Int))
  else (parseNat l).map (fun n : Nat => (n : Int))

/-- strings.Split for a one-byte separator. -/
def split (sep : Nat) : List Nat → List (List Nat)
  | [] => [[]]
  | b :: t =>
    if b = sep then [] :: split sep t
    else match split sep t with
      | [] => [[b]]
      | p :: ps => (b :: p) :: ps

theorem digitsAux_digits : ∀ f n, ∀ b ∈ digitsAux f n, isDigit b = true := by
  intro f
  induction f with
  | zero => intro n b h; simp [digitsAux] at h
  | succ f ih =>
    intro n b h
    rw [digitsAux] at h
    split at h
    · simp at h; subst h; unfold isDigit; simp; omega
    · simp only [List.mem_append, List.mem_singleton] at h
      rcases h with h | h
      · exact ih _ b h
      · subst h; unfold isDigit; simp; omega

theorem digitsAux_ne (f n : Nat) : digitsAux (f + 1) n ≠ [] := by
  rw [digitsAux]; split <;> simp

theorem digitsAux_value : ∀ f n, n < f → (digitsAux f n).foldl (fun a b => a * 10 + (b - 48)) 0 = n := by
  intro f
  induction f with
  | zero => intro n h; omega
  | succ f ih =>
    intro n h
    rw [digitsAux]
    split
    · simp
    · rw [List.foldl_append, ih _ (by omega)]
      simp only [List.foldl_cons, List.foldl_nil]
      omega

theorem nat_digits (n : Nat) : ∀ b ∈ nat n, isDigit b = true := digitsAux_digits _ _
theorem nat_ne (n : Nat) : nat n ≠ [] := digitsAux_ne _ _

theorem parse_nat (n : Nat) : parseNat (nat n) = some n := by
  unfold parseNat
  have h1 : (nat n).isEmpty = false := by
    cases h : nat n with
    | nil => exact absurd h (nat_ne n)
    | cons => rfl
  have h2 : (nat n).all isDigit = true := List.all_eq_true.2 (nat_digits n)
  rw [h1, h2]
  simp only [Bool.not_true, Bool.or_self, Bool.false_eq_true, if_false]
  rw [nat, digitsAux_value _ _ (by omega)]

theorem digit_ne {b c : Nat} (h : isDigit b = true) (hc : isDigit c = false) : b ≠ c := by
  intro e; subst e; rw [h] at hc; cases hc

theorem atoi_nat (n : Nat) : atoi (nat n) = some (n : Int) := by
  have hp := parse_nat n
  cases hl : nat n with
  | nil => exact absurd hl (nat_ne n)
  | cons b t =>
    have hb := nat_digits n b (by rw [hl]; simp)
    rw [hl] at hp
    have n1 : b ≠ 45 := digit_ne hb (by decide)
    have n2 : b ≠ 43 := digit_ne hb (by decide)
    unfold atoi
    rw [if_neg (by simpa using n1), if_neg (by simpa using n2), hp]
    rfl

/-- `strconv.Atoi(strconv.Itoa(n)) = n`. -/
theorem atoi_int (n : Int) : atoi (int n) = some n := by
  cases n with
  | ofNat n => exact atoi_nat n
  | negSucc n =>
    unfold atoi
    rw [if_pos (show (int (Int.negSucc n)).head? = some 45 from rfl)]
    show (parseNat (nat (n + 1))).map _ = _
    rw [parse_nat]
    rfl

theorem int_bytes (n : Int) : ∀ b ∈ int n, isDigit b = true ∨ b = 45 := by
  cases n with
  | ofNat n => intro b h; exact Or.inl (nat_digits n b h)
  | negSucc n =>
    intro b h
    simp only [int, List.mem_cons] at h
    rcases h with h | h
    · exact Or.inr h
    · exact Or.inl (nat_digits _ b h)

theorem int_ne (n : Int) : int n ≠ [] := by
  cases n with
  | ofNat n => exact nat_ne n
  | negSucc n => simp [int]

/-- A byte that occurs in no printed number. -/
theorem not_mem_int {c : Nat} (h1 : isDigit c = false) (h2 : c ≠ 45) (n : Int) : c ∉ int n := by
  intro h
  rcases int_bytes n c h with h | h
  · rw [h] at h1; cases h1
  · exact h2 h

theorem split_none {sep : Nat} {l : List Nat} (h : sep ∉ l) : split sep l = [l] := by
  induction l with
  | nil => rfl
  | cons b t ih =>
    simp only [List.mem_cons, not_or] at h
    rw [split, if_neg (fun e => h.1 e.symm), ih h.2]

theorem split_append {sep : Nat} {a b : List Nat} (h : sep ∉ a) : split sep (a ++ sep :: b) = a :: split sep b := by
  induction a with
  | nil => simp [split]
  | cons x t ih =>
    simp only [List.mem_cons, not_or] at h
    rw [List.cons_append, split, if_neg (fun e => h.1 e.symm), ih h.2]

end Phoenix.Dec
