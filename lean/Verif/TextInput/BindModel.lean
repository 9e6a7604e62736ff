import Verif.TextInput.Model
/-
Model of custom key bindings of the text input
(components/input/internal/input/infrastructure/keybindings.go:108-143, components/input/input.go:94-100, 154-170, 341-344).

Simplification: a handler is a pure function of the input and the key (a Go closure could also keep state of its own).
-/
namespace Phoenix.TextInput

/-- keybindings.go:11 `KeyHandler`. -/
abbrev Handler := T → KeyMsg → T

/-- keybindings.go:131: the test for "handler modified the input". -/
def T.looksChanged (t r : T) : Bool := r.content != t.content || r.cursor != t.cursor

/-- keybindings.go:126-138 `CustomKeyBindings.Handle`; `d` is the fallback's Handle. -/
def customHandle (d : Handler) (t : T) (k : KeyMsg) : List Handler → T
  | [] => d t k
  | h :: hs => if t.looksChanged (h t k) then h t k else customHandle d t k hs

/-- input.go:154-170 `Update` on a key message, with the bindings of CustomKeyBindings(hs...)
(input.go:342-344, keybindings.go:116-121). -/
def T.updateWith (S : Seg) (hs : List Handler) (t : T) (k : KeyMsg) : T :=
  if t.focused = false then t else customHandle (fun t k => t.handleKey S k) t k hs

/-- keybindings.go:141-143 `AddHandler`. -/
def addHandler (hs : List Handler) (h : Handler) : List Handler := hs ++ [h]

end Phoenix.TextInput
