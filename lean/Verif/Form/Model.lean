import Verif.Tea.Key
/-
  Model of components/form: fields, focus, validation, submission.

  Conventions and simplifications:
  * `M` is the type of the field models embedded in the form (any Go value with a `View`
    method); what the form can learn about one by type assertions is the parameter
    `Iface M`;
  * a validator is an arbitrary function of the value, returning an error of type `E` or
    nothing; names are any type with decidable equality;
  * Go slices are lists here (value semantics).  The sharing of backing arrays by
    `Field(...)` is modelled separately in the second half of this file;
  * labels, title and theme are display-only and left out.
-/
namespace Phoenix.Form

/-- A Go `interface{}` value handed to a validator: nil, a string, a field model itself,
    or any other value. components/form/internal/domain/value/validator.go, components/form/form.go:250-269. -/
inductive Val (M : Type) where
  | nil
  | str (s : List UInt8)
  | model (m : M)
  | other (n : Nat)
  deriving DecidableEq, Repr

/-- What the type switch of components/form/form.go:255-265 sees in a field model:
    a `Value() string` method, a `SelectedValue() (interface{}, bool)` method, or neither. -/
inductive Exposed (M : Type) where
  | text (s : List UInt8)
  | selected (v : Option (Val M))
  | neither
  deriving DecidableEq, Repr

/-- Messages the form distinguishes. components/form/form.go:156-163. -/
inductive Msg where
  | key (k : KeyMsg)
  | other (n : Nat)
  deriving DecidableEq, Repr

/-- The type assertions the form makes on a field model: components/form/form.go:255-265
    (`exposed`) and 230-233 (`update`: `none` if the model has no method
    `Update(tea.Msg) (value.FieldModel, tea.Cmd)`, else the updated model). -/
structure Iface (M : Type) where
  exposed : M → Exposed M
  update : M → Msg → Option M

/-- components/form/internal/domain/value/field.go:10-18. -/
structure Field (N M E : Type) where
  name : N
  model : M
  validators : List (Val M → Option E)
  touched : Bool
  dirty : Bool
  errors : List E

/-- components/form/internal/domain/model/form.go:9-14 and components/form/form.go:54-59
    (`fieldNames` as an association list, newest first). -/
structure Form (N M E : Type) where
  fields : List (Field N M E)
  focused : Int
  submitted : Bool
  fieldNames : List (N × Nat)

variable {N M E : Type} [DecidableEq N]

/-- components/form/form.go:62-68 `New`. -/
def new : Form N M E := ⟨[], 0, false, []⟩

/-- components/form/internal/domain/value/field.go:21-31 `NewField` then 69-79 `WithValidators`. -/
def newField (name : N) (model : M) (vs : List (Val M → Option E)) : Field N M E :=
  ⟨name, model, vs, false, false, []⟩

/-- components/form/internal/domain/model/form.go:47-59 `WithFields`. -/
def withFields (f : Form N M E) (fs : List (Field N M E)) : Form N M E :=
  ⟨fs, if f.focused ≥ fs.length then 0 else f.focused, f.submitted, f.fieldNames⟩

/-- components/form/form.go:73-90 `Field`. -/
def addField (f : Form N M E) (name : N) (model : M) (vs : List (Val M → Option E)) : Form N M E :=
  let g := withFields f (f.fields ++ [newField name model vs])
  ⟨g.fields, g.focused, g.submitted, (name, f.fields.length) :: f.fieldNames⟩

/-- components/form/internal/domain/value/field.go:95-105 `MarkTouched`. -/
def Field.markTouched (x : Field N M E) : Field N M E :=
  ⟨x.name, x.model, x.validators, true, x.dirty, x.errors⟩

/-- components/form/internal/domain/value/field.go:82-91 `WithModel` then 108-118 `MarkDirty`. -/
def Field.withModelDirty (x : Field N M E) (m : M) : Field N M E :=
  ⟨x.name, m, x.validators, x.touched, true, x.errors⟩

/-- components/form/internal/domain/value/field.go:121-131 `WithErrors`. -/
def Field.withErrors (x : Field N M E) (es : List E) : Field N M E :=
  ⟨x.name, x.model, x.validators, x.touched, x.dirty, es⟩

/-- components/form/internal/domain/value/field.go:147-149 `IsValid`. -/
def Field.isValid (x : Field N M E) : Bool := x.errors.length == 0

/-- components/form/internal/domain/model/form.go:78-82 and 104-108: mark the field that
    loses the focus. -/
def touchFocused (f : Form N M E) : List (Field N M E) :=
  if f.focused < f.fields.length then f.fields.modify f.focused.toNat Field.markTouched else f.fields

/-- components/form/internal/domain/model/form.go:70-90 `MoveFocusNext`. -/
def moveFocusNext (f : Form N M E) : Form N M E :=
  if f.fields.length = 0 then f
  else ⟨touchFocused f, (f.focused + 1).tmod f.fields.length, f.submitted, f.fieldNames⟩

/-- components/form/internal/domain/model/form.go:93-116 `MoveFocusPrev`. -/
def moveFocusPrev (f : Form N M E) : Form N M E :=
  if f.fields.length = 0 then f
  else ⟨touchFocused f, if f.focused - 1 < 0 then (f.fields.length : Int) - 1 else f.focused - 1,
        f.submitted, f.fieldNames⟩

/-- components/form/internal/domain/model/form.go:119-139 `UpdateField` (index in range). -/
def updateField (f : Form N M E) (i : Nat) (m : M) : Form N M E :=
  ⟨f.fields.modify i (fun x => x.withModelDirty m), f.focused, f.submitted, f.fieldNames⟩

/-- components/form/form.go:255-265: the value put in the map for one field, if any. -/
def fieldValue (I : Iface M) (m : M) : Option (Val M) :=
  match I.exposed m with
  | .text s => some (.str s)
  | .selected v => v
  | .neither => some (.model m)

/-- components/form/form.go:250-269 `extractFieldValues`: the Go map as the function from
    names to the last value stored under that name. -/
def extractFieldValues (I : Iface M) : List (Field N M E) → N → Option (Val M)
  | [], _ => none
  | x :: xs, n =>
    match extractFieldValues I xs n with
    | some v => some v
    | none => if x.name = n then fieldValue I x.model else none

/-- components/form/internal/domain/model/form.go:185-189: the errors of the validators that
    reject the value, in order. -/
def runValidators (vs : List (Val M → Option E)) (v : Val M) : List E := vs.filterMap (· v)

/-- components/form/internal/domain/model/form.go:175-192: one field of `ValidateAll`. -/
def validateOne (values : N → Option (Val M)) (x : Field N M E) : Field N M E :=
  match values x.name with
  | some v => x.withErrors (runValidators x.validators v)
  | none => x

/-- components/form/internal/domain/model/form.go:171-200 `ValidateAll`. -/
def validateAll (f : Form N M E) (values : N → Option (Val M)) : Form N M E :=
  ⟨f.fields.map (validateOne values), f.focused, f.submitted, f.fieldNames⟩

/-- components/form/internal/domain/model/form.go:203-210 `IsValid`. -/
def isValid (f : Form N M E) : Bool := f.fields.all Field.isValid

/-- components/form/internal/domain/model/form.go:213-220 `Submit`. -/
def submit (f : Form N M E) : Form N M E := ⟨f.fields, f.focused, true, f.fieldNames⟩

/-- Commands a form returns: the submit message, tea.Quit, or whatever the field returned
    (not modelled further). components/form/form.go:166-246, 342-346. -/
inductive Cmd where
  | none | submit | quit | field
  deriving DecidableEq, Repr

/-- components/form/form.go:221-246 `delegateToFocusedField`. -/
def delegate (I : Iface M) (f : Form N M E) (msg : Msg) : Form N M E × Cmd :=
  if f.focused ≥ f.fields.length then (f, .none)
  else match f.fields[f.focused.toNat]? with
    | none => (f, .none)
    | some x =>
      match I.update x.model msg with
      | some m => (updateField f f.focused.toNat m, .field)
      | none => (f, .none)

/-- components/form/internal/infrastructure/keyboard.go:9-24. -/
inductive Action where
  | none | next | prev | submit | quit
  deriving DecidableEq, Repr

/-- components/form/internal/infrastructure/keyboard.go:33-65 with the default bindings
    (no key is bound to reset). -/
def getAction (k : KeyMsg) : Action :=
  if k.type = .tab ∧ k.shift = true then .prev
  else match k.type with
    | .tab => .next
    | .enter => .submit
    | .ctrlC => .quit
    | .esc => .quit
    | _ => .none

/-- components/form/form.go:186-202: the submit action. -/
def trySubmit (I : Iface M) (f : Form N M E) : Form N M E × Cmd :=
  if isValid (validateAll f (extractFieldValues I f.fields)) then
    (submit (validateAll f (extractFieldValues I f.fields)), .submit)
  else (validateAll f (extractFieldValues I f.fields), .none)

/-- components/form/form.go:156-218 `Update`, `handleKey`. -/
def update (I : Iface M) (f : Form N M E) : Msg → Form N M E × Cmd
  | .key k =>
    match getAction k with
    | .next => (moveFocusNext f, .none)
    | .prev => (moveFocusPrev f, .none)
    | .submit => trySubmit I f
    | .quit => (f, .quit)
    | .none => delegate I f (.key k)
  | .other n => delegate I f (.other n)

/-- components/form/form.go:106-113 `Value`. -/
def value (f : Form N M E) (name : N) : Option M :=
  match f.fieldNames.find? (fun p => p.1 = name) with
  | some (_, i) => if i ≥ f.fields.length then none else (f.fields[i]?).map (·.model)
  | none => none

/-- components/form/form.go:121-128 `IsDirty`. -/
def isDirty (f : Form N M E) : Bool := f.fields.any (·.dirty)

/-- components/form/form.go:329-338: what `renderField` says about a field: the errors, a
    check mark, or nothing. -/
inductive Verdict (E : Type) where
  | errors (es : List E)
  | valid
  | nothing

/-- components/form/form.go:329-338. -/
def verdict (x : Field N M E) : Verdict E :=
  if x.errors.length > 0 then .errors x.errors
  else if x.touched && x.isValid then .valid
  else .nothing

/-- The public operations on a form. components/form/form.go:73-90, 156-163. -/
inductive Op (N M E : Type) where
  | field (name : N) (model : M) (vs : List (Val M → Option E))
  | update (msg : Msg)

/-- components/form/form.go:73-90, 156-163. -/
def apply (I : Iface M) (f : Form N M E) : Op N M E → Form N M E
  | .field n m vs => addField f n m vs
  | .update msg => (update I f msg).1

/-! ## Validators -/

/-- components/form/internal/domain/value/validator.go:14-29 `Required`.  `blank` is
    `strings.TrimSpace(s) == ""`. -/
def required (blank : List UInt8 → Bool) (err : E) : Val M → Option E
  | .nil => some err
  | .str s => if blank s then some err else none
  | _ => none

/-- components/form/internal/domain/value/validator.go:32-45 `MinLength` (byte length). -/
def minLength (n : Int) (errType err : E) : Val M → Option E
  | .str s => if (s.length : Int) < n then some err else none
  | _ => some errType

/-- components/form/internal/domain/value/validator.go:48-61 `MaxLength` (byte length). -/
def maxLength (n : Int) (errType err : E) : Val M → Option E
  | .str s => if (s.length : Int) > n then some err else none
  | _ => some errType

/-! ## Slices: the sharing done by `Field(...)` -/

/-- A form seen as its slice of fields: backing array and length.  (The capacity belongs
    to the array: every slice in this code starts at index 0.) -/
structure Slice where
  block : Nat
  len : Nat
  deriving DecidableEq, Repr

/-- The heap: backing arrays of cells (`none` = not yet written), the length of each being
    the capacity; and the slices of all forms made so far.
Go language (slices); components/form/form.go:73-90, components/form/internal/domain/model/form.go:47-59. -/
structure Heap (F : Type) where
  blocks : List (List (Option F))
  forms : List Slice

/-- The fields of form `i`. components/form/internal/domain/model/form.go:32-34. -/
def Heap.read {F : Type} (h : Heap F) (i : Nat) : Option (List (Option F)) :=
  match h.forms[i]? with
  | some s => (h.blocks[s.block]?).map (·.take s.len)
  | none => none

/-- components/form/internal/domain/model/form.go:17-24: `[]*value.Field{}`. -/
def Heap.newForm {F : Type} (h : Heap F) : Heap F :=
  ⟨h.blocks ++ [[]], h.forms ++ [⟨h.blocks.length, 0⟩]⟩

/-- components/form/form.go:76 `append(f.domain.Fields(), field)` on the slice of form `i`,
    the result becoming a new form (85-89).  Go's append writes in place when the capacity
    allows, else copies into a new array of capacity `grow len` (`grow` is a parameter;
    the Go runtime doubles small slices). -/
def Heap.extend {F : Type} (grow : Nat → Nat) (h : Heap F) (i : Nat) (x : F) : Heap F :=
  match h.forms[i]? with
  | none => h
  | some s =>
    match h.blocks[s.block]? with
    | none => h
    | some cells =>
      if s.len < cells.length then
        ⟨h.blocks.set s.block (cells.set s.len (some x)), h.forms ++ [⟨s.block, s.len + 1⟩]⟩
      else
        ⟨h.blocks ++ [cells.take s.len ++ some x :: List.replicate (grow s.len - s.len - 1) none],
         h.forms ++ [⟨h.blocks.length, s.len + 1⟩]⟩

/-- components/form/internal/domain/model/form.go:78-79, 104-105, 125-126, 172-173: the other
    operations copy the fields into a new array before changing one (`g`), the result
    becoming a new form. -/
def Heap.copyForm {F : Type} (h : Heap F) (i : Nat) (g : List (Option F) → List (Option F)) : Heap F :=
  match h.read i with
  | none => h
  | some cells => ⟨h.blocks ++ [g cells], h.forms ++ [⟨h.blocks.length, (g cells).length⟩]⟩

/-- One derivation step. components/form/form.go:62-90, 156-163. -/
inductive HOp (F : Type) where
  | newForm
  | extend (i : Nat) (x : F)
  | copyForm (i : Nat) (g : List (Option F) → List (Option F))

/-- One derivation step on the heap. components/form/form.go:62-90, 156-163. -/
def hstep {F : Type} (grow : Nat → Nat) (h : Heap F) : HOp F → Heap F
  | .newForm => h.newForm
  | .extend i x => h.extend grow i x
  | .copyForm i g => h.copyForm i g

end Phoenix.Form

namespace Phoenix.Form

/-- First result type of a Go method `Update(tea.Msg) (T, tea.Cmd)`: the component's own type,
    or the interface type `value.FieldModel` that components/form/form.go:231 requires. Go
    method sets match by identical types, so only the latter satisfies the assertion. -/
inductive UpdateType where
  | own
  | fieldModel
  deriving DecidableEq, Repr

/-- The components of the library that can be put in a form, with the first result type of
    their `Update`: components/input/input.go:154, components/input/textarea.go:325,
    components/select/select.go:136, components/multiselect/multiselect.go:197,
    components/confirm/confirm.go:152, components/list/list.go:194, components/viewport/viewport.go:162,
    components/table/table.go:145, components/progress/bar.go:132, components/progress/spinner.go:74,
    components/modal/modal.go:201, components/form/form.go:156 and the example model
    components/form/examples/basic/main.go:36. -/
def libraryComponents : List (String × UpdateType) :=
  [("Input", .own), ("TextArea", .own), ("Select", .own), ("MultiSelect", .own), ("Confirm", .own),
   ("List", .own), ("Viewport", .own), ("Table", .own), ("Bar", .own), ("Spinner", .own),
   ("Modal", .own), ("Form", .own), ("simpleInput", .own)]

/-- components/form/form.go:230-233: the assertion. `upd` is what the component's `Update` does. -/
def assertUpdate {M : Type} (t : UpdateType) (upd : Msg → M) (msg : Msg) : Option M :=
  if t = .fieldModel then some (upd msg) else none

end Phoenix.Form
