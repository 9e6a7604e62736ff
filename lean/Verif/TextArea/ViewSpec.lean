import Verif.TextArea.Spec
/-
What a terminal shows for a text with the two escape sequences "reverse on" and "reverse off":
rows of cells, each a character and whether it is reversed.  Used to say what a view looks like.
-/
namespace Phoenix.TextArea

abbrev Cell := Char × Bool

/-- Put a cell in front of the first row. -/
def consCell (c : Cell) : List (List Cell) → List (List Cell)
  | [] => [[c]]
  | l :: ls => (c :: l) :: ls

/-- The picture of a text; the flag is the current reverse-video state. -/
def paint : List Char → Bool → List (List Cell)
  | [], _ => [[]]
  | '\x1b' :: '[' :: '7' :: 'm' :: cs, _ => paint cs true
  | '\x1b' :: '[' :: '2' :: '7' :: 'm' :: cs, _ => paint cs false
  | '\n' :: cs, r => [] :: paint cs r
  | c :: cs, r => consCell (c, r) (paint cs r)

/-- An unmarked text. -/
def plain (l : List Char) : List Cell := l.map (fun c => (c, false))

/-- A line with the cursor shown at `col`: that character reversed, or a reversed blank after
the end of the line. -/
def marked (l : List Char) (col : Nat) : List Cell :=
  l.zipIdx.map (fun p => (p.1, decide (p.2 = col))) ++ (if l.length ≤ col then [(' ', true)] else [])

/-- Number of reversed cells. -/
def reversed (rows : List (List Cell)) : Nat := (rows.flatten.filter (·.2)).length

/-- A text without line breaks and escape characters. -/
def Printable (l : List Char) : Prop := '\n' ∉ l ∧ '\x1b' ∉ l

end Phoenix.TextArea
