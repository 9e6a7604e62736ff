import Verif.Tea.Key
/-
Model of the Table component.

Sources (under /repo/components/table): table.go, internal/domain/model/{table,column}.go,
internal/domain/service/sort.go, internal/domain/value/{alignment,sort_direction}.go,
internal/infrastructure/keybindings.go.

Simplifications:
  * Go strings that are cut or compared are their UTF-8 bytes (`Bytes`); column keys are `String`s;
  * a Row (map[string]interface{}) is a function from keys to cell values, a missing key reads as nil;
  * a finite float64 is represented by the integer n with value n * 2^-1074 (every finite float64 has this
    form and the representation preserves the order; +0 and -0 coincide), plus NaN and the infinities;
  * `fmt.Sprintf("%v", x)` is a parameter for floats and for values of other types (`Fmt`), decimal for
    integers, "true"/"false" for booleans;
  * sort.SliceStable is insertion sort, which is the exact algorithm for up to 20 rows (Go sorts blocks
    of 20 rows by insertion and merges them); `C60_stable_sort_unique` shows that for an ordering relation
    every stable sorting algorithm yields the same result;
  * themes are not modelled (the View ignores them).
-/
namespace Phoenix.Table

/-- A Go string. -/
abbrev Bytes := List UInt8

/-- float64. -/
inductive F64 where
  | nan | negInf | fin (n : Int) | posInf
deriving DecidableEq, Repr

/-- Go `<` on float64. -/
def F64.lt : F64 → F64 → Bool
  | .nan, _ => false | _, .nan => false
  | .negInf, .negInf => false | .negInf, _ => true
  | .fin _, .negInf => false | .fin a, .fin b => decide (a < b) | .fin _, .posInf => true
  | .posInf, _ => false

/-- A cell value, interface{}; `other` is any other dynamic type, with its printed form.
components/table/internal/domain/service/sort.go:56-98. -/
inductive Val where
  | nil | str (s : Bytes) | int (n : Int) | int64 (n : Int) | float (f : F64) | bool (b : Bool)
  | other (printed : Bytes)
deriving DecidableEq, Repr

/-- Decimal digits of a natural number. Go library fmt. -/
def natDigits (n : Nat) : Bytes := (Nat.toDigits 10 n).map fun c => UInt8.ofNat c.toNat
/-- `%d`. Go library fmt; components/table/table.go:311-339. -/
def intDigits (n : Int) : Bytes := if n < 0 then 45 :: natDigits n.natAbs else natDigits n.natAbs

/-- `fmt.Sprintf("%v", x)`; `ff` prints floats. Go library; components/table/table.go:311-339. -/
def sprint (ff : F64 → Bytes) : Val → Bytes
  | .nil => [60, 110, 105, 108, 62] | .str s => s | .int n => intDigits n | .int64 n => intDigits n
  | .float f => ff f
  | .bool true => [116, 114, 117, 101] | .bool false => [102, 97, 108, 115, 101]
  | .other p => p

/-! ### service/sort.go -/

/-- sort.go:101-109 `compareStrings`: Go compares strings bytewise. -/
def compareStrings : Bytes → Bytes → Int
  | [], [] => 0
  | [], _ :: _ => -1
  | _ :: _, [] => 1
  | a :: as, b :: bs => if a < b then -1 else if b < a then 1 else compareStrings as bs

/-- sort.go:112-120, 123-131 `compareInts`, `compareInt64s`. -/
def compareInts (a b : Int) : Int := if a < b then -1 else if a > b then 1 else 0
/-- sort.go:134-142 `compareFloat64s`. -/
def compareFloats (a b : F64) : Int := if a.lt b then -1 else if b.lt a then 1 else 0
/-- sort.go:145-153 `compareBools`. -/
def compareBools (a b : Bool) : Int := if a = b then 0 else if !a && b then -1 else 1

/-- sort.go:56-98 `Compare`. -/
def compare (ff : F64 → Bytes) (a b : Val) : Int :=
  match a, b with
  | .nil, .nil => 0
  | .nil, _ => -1
  | _, .nil => 1
  | .str x, .str y => compareStrings x y
  | .int x, .int y => compareInts x y
  | .int64 x, .int64 y => compareInts x y
  | .float x, .float y => compareFloats x y
  | .bool x, .bool y => compareBools x y
  | a, b => compareStrings (sprint ff a) (sprint ff b)

/-- value/sort_direction.go:4-13. -/
inductive Dir where
  | none | asc | desc
deriving DecidableEq, Repr

/-- sort_direction.go:46-55 `Toggle`. -/
def Dir.toggle : Dir → Dir
  | .asc => .desc | .desc => .asc | .none => .asc

/-- components/table/internal/domain/model/table.go:8. -/
abbrev Row := String → Val

/-- One step of insertion sort: the new element moves left while it is less than its left neighbour.
`l` is the sorted prefix, reversed (the left neighbour is its head). Go library sort.SliceStable; sort.go:24-47. -/
def insertRev {α : Type} (less : α → α → Bool) (x : α) : List α → List α
  | [] => [x]
  | y :: ys => if less x y then y :: insertRev less x ys else x :: y :: ys

/-- sort.SliceStable (see the header). Go library; sort.go:24-47. -/
def stableSort {α : Type} (less : α → α → Bool) (l : List α) : List α :=
  (l.foldl (fun acc x => insertRev less x acc) []).reverse

/-- sort.go:34-44: the less function. -/
def lessRow (ff : F64 → Bytes) (key : String) (dir : Dir) (a b : Row) : Bool :=
  if dir = .asc then decide (compare ff (a key) (b key) < 0) else decide (compare ff (a key) (b key) > 0)

/-- sort.go:24-47 `Sort`. -/
def sortRows (ff : F64 → Bytes) (rows : List Row) (key : String) (dir : Dir) : List Row :=
  if dir = .none ∨ rows.length = 0 then rows else stableSort (lessRow ff key dir) rows

/-! ### model/column.go, model/table.go -/

/-- value/alignment.go:5-14; `unknown` is any other integer. -/
inductive Alignment where
  | left | center | right | unknown
deriving DecidableEq, Repr

/-- model/column.go:10-17. -/
structure Column where
  key : String
  title : Bytes
  width : Int
  alignment : Alignment := .left
  sortable : Bool := false
  renderer : Option (Val → Bytes) := none

/-- model/table.go:12-22. -/
structure T where
  columns : List Column
  rows : List Row
  sorted : Option (List Row)
  sortKey : String
  sortDir : Dir
  selected : Int
  scroll : Int
  height : Int
  showHeader : Bool

/-- model/table.go:25-37 `NewTable`. -/
def T.new (columns : List Column) : T :=
  { columns, rows := [], sorted := none, sortKey := "", sortDir := .none, selected := 0, scroll := 0, height := 10,
    showHeader := true }
/-- model/table.go:55-67 `WithRows`. -/
def T.withRows (t : T) (rows : List Row) : T :=
  { t with rows := rows, sorted := none, sortKey := "", sortDir := .none, selected := 0, scroll := 0 }
/-- model/table.go:70-82 `WithHeight`. -/
def T.withHeight (t : T) (h : Int) : T := { t with height := h }
/-- model/table.go:85-97 `WithShowHeader`. -/
def T.withShowHeader (t : T) (b : Bool) : T := { t with showHeader := b }
/-- model/table.go:101-113 `SortBy`. -/
def T.sortBy (t : T) (key : String) (dir : Dir) (sorted : List Row) : T :=
  { t with sorted := some sorted, sortKey := key, sortDir := dir, selected := 0, scroll := 0 }
/-- model/table.go:116-128 `ClearSort`. -/
def T.clearSort (t : T) : T := { t with sorted := none, sortKey := "", sortDir := .none }
/-- model/table.go:235-240 `effectiveRows`. -/
def T.effective (t : T) : List Row := t.sorted.getD t.rows
/-- model/table.go:168-171, 211-214, 269-272: rows that fit. -/
def T.visible (t : T) : Int := if t.showHeader then t.height - 1 else t.height
/-- model/table.go:131-155 `MoveUp`. -/
def T.moveUp (t : T) : T :=
  if t.selected ≤ 0 then t
  else { t with selected := t.selected - 1,
                scroll := if t.selected - 1 < t.scroll then t.selected - 1 else t.scroll }
/-- model/table.go:158-187 `MoveDown`. -/
def T.moveDown (t : T) : T :=
  if t.selected ≥ (t.effective.length : Int) - 1 then t
  else { t with selected := t.selected + 1,
                scroll := if t.selected + 1 ≥ t.scroll + t.visible then t.selected + 1 - t.visible + 1 else t.scroll }
/-- model/table.go:190-202 `MoveToStart`. -/
def T.moveToStart (t : T) : T := { t with selected := 0, scroll := 0 }
/-- model/table.go:205-232 `MoveToEnd`. -/
def T.moveToEnd (t : T) : T :=
  let m := if (t.effective.length : Int) - 1 < 0 then 0 else (t.effective.length : Int) - 1
  let o := m - t.visible + 1
  { t with selected := m, scroll := if o < 0 then 0 else o }
/-- model/table.go:243-249 `SelectedRow`. -/
def T.selectedRow (t : T) : Option Row :=
  if t.selected ≥ 0 ∧ t.selected < t.effective.length then t.effective[t.selected.toNat]? else none
/-- model/table.go:267-285 `VisibleRows`; `none` is the panic of an invalid slice expression. -/
def T.visibleRows (t : T) : Option (List Row) :=
  let start := t.scroll
  if start ≥ t.effective.length then some []
  else
    let e := start + t.visible
    let e := if e > t.effective.length then (t.effective.length : Int) else e
    if start < 0 ∨ e < start then none else some ((t.effective.drop start.toNat).take (e - start).toNat)

/-! ### table.go -/

/-- keybindings.go:7-16 (Sort bindings are never used). -/
structure Keys where
  up : List (List Char) := ["↑".toList, "k".toList]
  down : List (List Char) := ["↓".toList, "j".toList]
  pageUp : List (List Char) := ["pgup".toList]
  pageDown : List (List Char) := ["pgdown".toList]
  home : List (List Char) := ["home".toList, "g".toList]
  «end» : List (List Char) := ["end".toList, "G".toList]
  clearSort : List (List Char) := ["c".toList]

/-- table.go:193-195, the loop of pageUp. -/
def pageUpLoop : Nat → T → T
  | 0, t => t
  | n + 1, t => if t.selected > 0 then pageUpLoop n t.moveUp else t
/-- table.go:187-201 `pageUp`. -/
def T.pageUp (t : T) : T := pageUpLoop t.visible.toNat t
/-- table.go:211-213, the loop of pageDown. -/
def pageDownLoop : Nat → T → T
  | 0, t => t
  | n + 1, t => if t.selected < (t.rows.length : Int) - 1 then pageDownLoop n t.moveDown else t
/-- table.go:204-219 `pageDown`. -/
def T.pageDown (t : T) : T := pageDownLoop t.visible.toNat t

/-- table.go:155-184 `handleKeyPress`. -/
def T.handleKey (kb : Keys) (t : T) (k : KeyMsg) : T :=
  if k.str ∈ kb.up then t.moveUp
  else if k.str ∈ kb.down then t.moveDown
  else if k.str ∈ kb.home then t.moveToStart
  else if k.str ∈ kb.end then t.moveToEnd
  else if k.str ∈ kb.pageUp then t.pageUp
  else if k.str ∈ kb.pageDown then t.pageDown
  else if k.str ∈ kb.clearSort then t.clearSort
  else t

/-- table.go:363-392 `SortByColumn`. -/
def T.sortByColumn (ff : F64 → Bytes) (t : T) (key : String) : T :=
  match t.columns.find? (fun c => c.key == key) with
  | none => t
  | some c =>
    if !c.sortable then t
    else
      let dir := if t.sortDir ≠ .none ∧ t.sortKey = key then t.sortDir.toggle else .asc
      t.sortBy key dir (sortRows ff t.rows key dir)

/-- Public operations, table.go:87-152, 363-401. -/
inductive Op where
  | height (h : Int)
  | showHeader (b : Bool)
  | setRows (rows : List Row)
  | key (kb : Keys) (k : KeyMsg)
  | sortByColumn (key : String)
  | clearSort

/-- table.go:87-152, 363-401. -/
def T.step (ff : F64 → Bytes) (t : T) : Op → T
  | .height h => t.withHeight h
  | .showHeader b => t.withShowHeader b
  | .setRows r => t.withRows r
  | .key kb k => t.handleKey kb k
  | .sortByColumn key => t.sortByColumn ff key
  | .clearSort => t.clearSort

/-- A history of operations on a new table.
a history of calls; not in the code itself: components/table/table.go:87-401. -/
def run (ff : F64 → Bytes) (t : T) (ops : List Op) : T := ops.foldl (T.step ff) t

/-! ### rendering -/

/-- strings.Repeat(" ", n) for n ≥ 0. -/
def spaces (n : Int) : Bytes := List.replicate n.toNat 32

/-- table.go:322-338: the padding part of `formatCell`. -/
def padCell (text : Bytes) (width : Int) (al : Alignment) : Bytes :=
  let padding := width - text.length
  if padding ≤ 0 then text
  else match al with
    | .left => text ++ spaces padding
    | .right => spaces padding ++ text
    | .center => spaces (padding.tdiv 2) ++ text ++ spaces (padding - padding.tdiv 2)
    | .unknown => text

/-- table.go:311-339 `formatCell`; `none` is a panic (slicing with a negative bound). -/
def formatCell (text : Bytes) (width : Int) (al : Alignment) : Option Bytes :=
  if (text.length : Int) > width then
    if width > 3 then some (padCell (text.take (width - 3).toNat ++ [46, 46, 46]) width al)
    else if width < 0 then none else some (padCell (text.take width.toNat) width al)
  else some (padCell text width al)

/-- "│" (U+2502), "─" (U+2500), "┼" (U+253C) in UTF-8. -/
def barV : Bytes := [0xE2, 0x94, 0x82]
/-- components/table/table.go:262: "─". -/
def barH : Bytes := [0xE2, 0x94, 0x80]
/-- components/table/table.go:264: "┼". -/
def cross : Bytes := [0xE2, 0x94, 0xBC]
/-- " ▲" and " ▼" (table.go:244-248). -/
def markUp : Bytes := [32, 0xE2, 0x96, 0xB2]
/-- components/table/table.go:247: " ▼". -/
def markDown : Bytes := [32, 0xE2, 0x96, 0xBC]

/-- Cells joined by a separator between columns (the loops at table.go:239-257, 261-266, 278-303). -/
def joinCells (sep : Bytes) : List Bytes → Bytes
  | [] => []
  | [c] => c
  | c :: cs => c ++ sep ++ joinCells sep cs

/-- table.go:240-251: one header cell. -/
def headerCell (t : T) (c : Column) : Option Bytes :=
  formatCell (if t.sortDir ≠ .none ∧ t.sortKey = c.key then c.title ++ (if t.sortDir = .asc then markUp else markDown)
    else c.title) c.width c.alignment

/-- table.go:262: one cell of the line under the header (strings.Repeat panics for a negative count). -/
def ruleCell (c : Column) : Option Bytes :=
  if c.width < 0 then none else some (List.replicate c.width.toNat barH).flatten

/-- table.go:281-287: the text of a cell. -/
def cellText (ff : F64 → Bytes) (row : Row) (c : Column) : Bytes :=
  match c.renderer with
  | some r => r (row c.key)
  | none => sprint ff (row c.key)

/-- table.go:292-296: the selection marker. -/
def markCell (cell : Bytes) : Bytes :=
  match cell with
  | [] => []
  | _ :: rest => 62 :: rest

/-- table.go:279-296: one data cell. -/
def dataCell (ff : F64 → Bytes) (row : Row) (marked : Bool) (c : Column) : Option Bytes :=
  (formatCell (cellText ff row c) c.width c.alignment).map fun cell => if marked then markCell cell else cell

/-- table.go:278-303: one data line; only the first column of the selected row is marked. -/
def dataLine (ff : F64 → Bytes) (t : T) (row : Row) (isSel : Bool) : Option Bytes :=
  ((t.columns.zipIdx).mapM fun ci => dataCell ff row (isSel && ci.2 == 0) ci.1).map (joinCells barV)

/-- table.go:224-308 `View`, as its list of lines (each is followed by a newline). -/
def T.view (ff : F64 → Bytes) (t : T) : Option (List Bytes) := do
  let rows ← t.visibleRows
  let head ← if t.showHeader then do
      let h ← t.columns.mapM (headerCell t)
      let r ← t.columns.mapM ruleCell
      pure [joinCells barV h, joinCells cross r]
    else pure []
  let body ← (rows.zipIdx).mapM fun ri => dataLine ff t ri.1 (decide (t.scroll + (ri.2 : Int) = t.selected))
  pure (head ++ body)

end Phoenix.Table
