import Verif.Choice.Model
import Verif.Decimal
/-
Model of the text Select.View and MultiSelect.View return, and of the default filter.

Sources (under /repo/components): select/select.go:203-261, select/internal/domain/model/defaults.go,
multiselect/multiselect.go:283-356, multiselect/internal/domain/model/defaults.go.

Simplifications: Go strings are their UTF-8 bytes; the argument lists with which the render function is
called are `S.renderVisible` / `MS.renderVisible` of Model.lean; strings.ToLower is a parameter.
-/
namespace Phoenix.Choice

/-- The UTF-8 bytes of a text. -/
def utf8 (s : List Char) : Bytes := s.flatMap String.utf8EncodeChar
/-- A string literal.
A literal of components/select/select.go:203-261 and components/multiselect/multiselect.go:283-356. -/
def lit (s : String) : Bytes := utf8 s.toList

/-- `fmt.Sprintf("%d", n)` for n ≥ 0. -/
def decimal (n : Nat) : Bytes := (Dec.nat n).map UInt8.ofNat

section
variable {P V : Type} [DecidableEq P]

/-- select/internal/domain/model/defaults.go:22-40 `defaultRender`. -/
def sDefaultRender (o : Opt V) (focused : Bool) : Bytes :=
  let cursor := if focused then lit "> " else lit "  "
  let label := if o.disabled then utf8 o.label ++ lit " (disabled)" else utf8 o.label
  let result := cursor ++ label
  if utf8 o.description ≠ [] then result ++ lit " - " ++ utf8 o.description else result

/-- multiselect/internal/domain/model/defaults.go:24-56 `defaultRender`. -/
def msDefaultRender (o : Opt V) (focused selected : Bool) : Bytes :=
  (if focused then lit "> " else lit "  ") ++
  (if selected then lit "[x] " else lit "[ ] ") ++
  utf8 o.label ++
  (if utf8 o.description ≠ [] then lit " - " ++ utf8 o.description else []) ++
  (if o.disabled then lit " (disabled)" else [])

/-- select.go:233-238, multiselect.go:321-326: the rows with a newline before all but the first. -/
def joinRows : List Bytes → Bytes
  | [] => []
  | r :: rs => r ++ rs.flatMap fun x => 10 :: x

/-- select.go:242-248, multiselect.go:330-336 `renderEmptyState`. -/
def emptyState (query : Bytes) : Bytes := if query ≠ [] then lit "(no matches)" else lit "(no options)"

/-- select.go:225-239, multiselect.go:313-327 `renderOptions`. -/
def renderOptions (query : Bytes) (rows : List Bytes) : Bytes :=
  if rows.length = 0 then emptyState query else joinRows rows

/-- select.go:251-261, multiselect.go:339-349 `renderFilterStatus`. -/
def filterStatus (query : Bytes) : Bytes :=
  [10, 10] ++ if query ≠ [] then lit "Filter: " ++ query else lit "Type to filter..."

/-- multiselect.go:352-356 `renderHelp`. -/
def help : Bytes := [10, 10] ++ lit "  a: all  n: none  Space: toggle  Enter: confirm"

/-- A Select with its title and render function: select.go:45-51, model/select.go:10-20. -/
structure SV (P : Type) where
  title : Bytes
  c : CS P
  render : P → Nat → Bool → Bytes

/-- A MultiSelect with its title and render function: multiselect.go:52-60, model/multiselect.go:10-20. -/
structure MV (P : Type) where
  title : Bytes
  c : CM P
  render : P → Nat → Bool → Bool → Bytes

/-- The public calls of Select plus WithRenderFunc (select.go:106-113). -/
inductive SVOp (P : Type) where
  | op (o : SOp P)
  | render (f : P → Nat → Bool → Bytes)

/-- The public calls of MultiSelect plus WithRenderFunc (multiselect.go:122-132). -/
inductive MVOp (P : Type) where
  | op (o : MOp P)
  | render (f : P → Nat → Bool → Bool → Bytes)

variable (dflt : P → Bytes → Bool) (deref : P → Opt V)

/-- select.go:54-61 `New` (the render function is the default one, model/select.go:42). -/
def SV.new (title : Bytes) : SV P := { title, c := CS.new dflt, render := fun p _ f => sDefaultRender (deref p) f }
/-- multiselect.go:63-72 `New`. -/
def MV.new (title : Bytes) : MV P := { title, c := CM.new dflt, render := fun p _ f s => msDefaultRender (deref p) f s }

/-- select.go:64-140: `Options` installs a new domain model, hence the default render function. -/
def SV.step (s : SV P) : SVOp P → SV P
  | .render f => { s with render := f }
  | .op (.options l) => { s with c := s.c.step dflt deref (.options l), render := fun p _ f => sDefaultRender (deref p) f }
  | .op o => { s with c := s.c.step dflt deref o }

/-- multiselect.go:75-202: `Options` installs a new domain model, hence the default render function. -/
def MV.step (s : MV P) : MVOp P → MV P
  | .render f => { s with render := f }
  | .op (.options l) => { s with c := s.c.step dflt deref (.options l), render := fun p _ f s => msDefaultRender (deref p) f s }
  | .op o => { s with c := s.c.step dflt deref o }

/-- a history of calls; not in the code itself: components/select/select.go:64-141. -/
def SV.run (s : SV P) (ops : List (SVOp P)) : SV P := ops.foldl (SV.step dflt deref) s
/-- a history of calls; not in the code itself: components/multiselect/multiselect.go:75-202. -/
def MV.run (s : MV P) (ops : List (MVOp P)) : MV P := ops.foldl (MV.step dflt deref) s

/-- select.go:203-222 `View`; `none` is a panic. -/
def SV.view (s : SV P) : Option Bytes :=
  s.c.d.renderVisible.map fun rows =>
    (if s.title ≠ [] then s.title ++ [10, 10] else []) ++
    renderOptions s.c.d.query (rows.map fun r => s.render r.opt r.index r.focused) ++
    (if s.c.filterable then filterStatus s.c.d.query else [])

/-- multiselect.go:290-292: the selection counter after the title. -/
def counter (count total : Nat) : Bytes :=
  lit " (" ++ decimal count ++ lit " of " ++ decimal total ++ lit " selected)"

/-- multiselect.go:283-310 `View`; `none` is a panic. -/
def MV.view (s : MV P) : Option Bytes :=
  s.c.d.renderVisible.map fun rows =>
    (if s.title ≠ [] then
      s.title ++ (if s.c.d.options.length > 0 then counter s.c.d.sel.idx.length s.c.d.options.length else []) ++ [10, 10]
     else []) ++
    renderOptions s.c.d.query (rows.map fun r => s.render r.opt r.index r.focused r.selected) ++
    (if s.c.filterable then filterStatus s.c.d.query else []) ++
    help

/-- strings.Contains on bytes.
Go library; components/select/internal/domain/model/defaults.go:15, components/multiselect/internal/domain/model/defaults.go:20. -/
def containsBytes (sub : Bytes) : Bytes → Bool
  | [] => sub.isEmpty
  | b :: bs => sub.isPrefixOf (b :: bs) || containsBytes sub bs

/-- select defaults.go:11-19 and multiselect defaults.go:11-21 `defaultFilter`; `lower` is strings.ToLower. -/
def defaultFilter (lower : Bytes → Bytes) (p : P) (query : Bytes) : Bool :=
  if query = [] then true else containsBytes (lower query) (lower (utf8 (deref p).label))

end
end Phoenix.Choice
