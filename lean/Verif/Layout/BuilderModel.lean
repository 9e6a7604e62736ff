import Verif.Layout.Model
/-
Model of the fluent API of layout/layout.go (Box, Flex) and of the tree operations of
layout/internal/domain/model/node.go.

`none` is a panic.  A public Box or Flex is a pointer to a value that every call replaces; the
variables of a user's program that hold such pointers are numbered.
-/
set_option linter.unusedVariables false
namespace Phoenix.Layout

/-- size.go:172-199: WithWidth, WithHeight, WithMinWidth, WithMaxWidth, WithMinHeight, WithMaxHeight. -/
def Size.withWidth (s : Size) (v : Int) : Option Size := Size.new v s.height s.minW s.maxW s.minH s.maxH
/-- layout/internal/domain/value/size.go:177-179. -/
def Size.withHeight (s : Size) (v : Int) : Option Size := Size.new s.width v s.minW s.maxW s.minH s.maxH
/-- layout/internal/domain/value/size.go:182-184. -/
def Size.withMinW (s : Size) (v : Int) : Option Size := Size.new s.width s.height v s.maxW s.minH s.maxH
/-- layout/internal/domain/value/size.go:187-189. -/
def Size.withMaxW (s : Size) (v : Int) : Option Size := Size.new s.width s.height s.minW v s.minH s.maxH
/-- layout/internal/domain/value/size.go:192-194. -/
def Size.withMinH (s : Size) (v : Int) : Option Size := Size.new s.width s.height s.minW s.maxW v s.maxH
/-- layout/internal/domain/value/size.go:197-199. -/
def Size.withMaxH (s : Size) (v : Int) : Option Size := Size.new s.width s.height s.minW s.maxW s.minH v

/-- spacing.go:47-54 NewSpacing (maxInt at 222-227). -/
def Spacing.new (t r b l : Int) : Spacing := ⟨t.toNat, r.toNat, b.toNat, l.toNat⟩
/-- spacing.go:62-70 NewSpacingAll. -/
def Spacing.all (v : Int) : Spacing := ⟨v.toNat, v.toNat, v.toNat, v.toNat⟩
/-- spacing.go:78-87 NewSpacingVH. -/
def Spacing.vh (v h : Int) : Spacing := ⟨v.toNat, h.toNat, v.toNat, h.toNat⟩

/-- layout.go:128-132 NewBox, model/box.go:71-83. -/
def Box.new (content : List Char) : Option Box :=
  if content = [] then none
  else some ⟨content, ⟨0, 0, 0, 0⟩, ⟨0, 0, 0, 0⟩, false, Size.free, .start, .start⟩

/-- The builder calls of a Box (layout.go:144-383). -/
inductive BoxOp where
  | width (v : Int) | height (v : Int) | minWidth (v : Int) | minHeight (v : Int) | maxWidth (v : Int)
  | maxHeight (v : Int)
  | padding (t r b l : Int) | paddingAll (v : Int) | paddingVH (v h : Int)
  | border | noBorder
  | margin (t r b l : Int) | marginAll (v : Int) | marginVH (v h : Int)
  | alignLeft | alignCenter | alignRight | alignTop | alignMiddle | alignBottom | align (h v : Align)
  deriving DecidableEq, Repr

/-- layout.go:144-383, with the With... methods of model/box.go:132-184 and the alignments of
value/alignment.go:81-103. -/
def Box.apply (b : Box) : BoxOp → Option Box
  | .width v => (b.size.withWidth v).map fun s => { b with size := s }
  | .height v => (b.size.withHeight v).map fun s => { b with size := s }
  | .minWidth v => (b.size.withMinW v).map fun s => { b with size := s }
  | .minHeight v => (b.size.withMinH v).map fun s => { b with size := s }
  | .maxWidth v => (b.size.withMaxW v).map fun s => { b with size := s }
  | .maxHeight v => (b.size.withMaxH v).map fun s => { b with size := s }
  | .padding t r bo l => some { b with padding := .new t r bo l }
  | .paddingAll v => some { b with padding := .all v }
  | .paddingVH v h => some { b with padding := .vh v h }
  | .border => some { b with border := true }
  | .noBorder => some { b with border := false }
  | .margin t r bo l => some { b with margin := .new t r bo l }
  | .marginAll v => some { b with margin := .all v }
  | .marginVH v h => some { b with margin := .vh v h }
  | .alignLeft => some { b with alignH := .start, alignV := .start }
  | .alignCenter => some { b with alignH := .middle, alignV := .middle }
  | .alignRight => some { b with alignH := .finish, alignV := .start }
  | .alignTop => some { b with alignH := .start, alignV := .start }
  | .alignMiddle => some { b with alignH := .start, alignV := .middle }
  | .alignBottom => some { b with alignH := .start, alignV := .finish }
  | .align h v => some { b with alignH := h, alignV := v }

/-- A chain of builder calls. layout/layout.go:144-383. -/
def Box.chain (b : Box) : List BoxOp → Option Box
  | [] => some b
  | o :: t => (b.apply o).bind fun b => b.chain t

/-- The builder calls of a Flex (layout.go:573-709); Width and Height (720-733) set a size that nothing
reads and are left out. -/
inductive FlexOp where
  | gap (v : Int)
  | justify (j : Justify)
  | alignItems (a : Items)
  deriving DecidableEq, Repr

/-- layout.go:573-709 with model/flexbox.go:126-158; a negative gap panics. -/
def Flex.apply (f : Flex) : FlexOp → Option Flex
  | .gap v => if v < 0 then none else some { f with gap := v }
  | .justify j => some { f with justify := j }
  | .alignItems a => some { f with align := a }

/-- layout.go:517-533 Row and Column, model/flexbox.go:55-68. -/
def Flex.new (horizontal : Bool) : Flex := ⟨horizontal, .start, .stretch, 0, []⟩

/-- model/flexbox.go:173-184 AddItem, called by layout.go:546-550 Add: the node holds the box value the
public box points to now. -/
def Flex.addItem (f : Flex) (b : Box) : Flex := { f with items := f.items ++ [b] }

/-- model/flexbox.go:206-225 RemoveItem. -/
def Flex.removeItem (f : Flex) (i : Int) : Option Flex :=
  if i < 0 ∨ i ≥ f.items.length then none
  else some { f with items := f.items.take i.toNat ++ f.items.drop (i.toNat + 1) }

/-- model/flexbox.go:228-236 ClearItems. -/
def Flex.clearItems (f : Flex) : Flex := if f.items.length = 0 then f else { f with items := [] }

/-- The variables of a program using the API. A program that uses layout/layout.go:118-826. -/
structure Store where
  boxes : Nat → Box
  flexes : Nat → Flex

/-- One statement of such a program. `render` is `box.Render()` or `box.String()`. layout/layout.go:128-826. -/
inductive Stmt where
  | newBox (v : Nat) (content : List Char)
  | box (v : Nat) (o : BoxOp)
  | render (v : Nat)
  | newFlex (f : Nat) (horizontal : Bool)
  | add (f v : Nat)
  | addRaw (f : Nat) (content : List Char)
  | flex (f : Nat) (o : FlexOp)
  deriving DecidableEq, Repr

/-- Set one entry of a function. Assignment to a variable; Go language. -/
def upd {α : Type} (m : Nat → α) (k : Nat) (x : α) : Nat → α := fun i => if i = k then x else m i

/-- layout.go: one statement; `W` is the display width. Lines 128-826 there. -/
def Store.step (W : List Char → Nat) (s : Store) : Stmt → Option Store
  | .newBox v c => (Box.new c).map fun b => { s with boxes := upd s.boxes v b }
  | .box v o => ((s.boxes v).apply o).map fun b => { s with boxes := upd s.boxes v b }
  | .render v => some { s with boxes := upd s.boxes v ((s.boxes v).renderPublic W).2 }
  | .newFlex f h => some { s with flexes := upd s.flexes f (Flex.new h) }
  | .add f v => some { s with flexes := upd s.flexes f ((s.flexes f).addItem (s.boxes v)) }
  | .addRaw f c => (Box.new c).map fun b => { s with flexes := upd s.flexes f ((s.flexes f).addItem b) }
  | .flex f o => ((s.flexes f).apply o).map fun x => { s with flexes := upd s.flexes f x }

/-- A program. a history of calls; not in the code itself: layout/layout.go:128-826. -/
def Store.run (W : List Char → Nat) (s : Store) : List Stmt → Option Store
  | [] => some s
  | o :: t => (s.step W o).bind fun s => s.run W t

/-! ### Trees -/

/-- node.go:58-67 NewNode (a nil box is not represented). -/
def Node.new (b : Box) : Node := .mk b ⟨0, 0⟩ []

/-- node.go:111-125 AddChild. Pointer identity is not represented: a node passed as its own child (a
panic in Go) is here a copy. -/
def Node.addChild (n c : Node) : Node := .mk n.box n.pos (n.children ++ [c])

/-- node.go:138-144 AddChildren. -/
def Node.addChildren (n : Node) : List Node → Node
  | [] => n
  | c :: t => (n.addChild c).addChildren t

/-- node.go:152-171 RemoveChild; `none` is the panic for an index out of bounds. -/
def Node.removeChild (n : Node) (i : Int) : Option Node :=
  if i < 0 ∨ i ≥ n.children.length then none
  else some (.mk n.box n.pos (n.children.take i.toNat ++ n.children.drop (i.toNat + 1)))

/-- node.go:178-186 ClearChildren. -/
def Node.clearChildren (n : Node) : Node := if n.children.length = 0 then n else .mk n.box n.pos []

/-- node.go:206-214 SetBox. -/
def Node.setBox (n : Node) (b : Box) : Node := .mk b n.pos n.children

mutual
/-- node.go:240-249 WalkWithDepth: the calls of the callback, in order. -/
def walkDepth (d : Nat) : Node → List (Node × Nat)
  | .mk b p cs => (.mk b p cs, d) :: walkDepths (d + 1) cs
/-- node.go:246-248: the loop over the children. -/
def walkDepths (d : Nat) : List Node → List (Node × Nat)
  | [] => []
  | c :: cs => walkDepth d c ++ walkDepths d cs
end

mutual
/-- node.go:224-229 Walk: the calls of the callback, in order. -/
def walk : Node → List Node
  | .mk b p cs => .mk b p cs :: walks cs
/-- node.go:226-228. -/
def walks : List Node → List Node
  | [] => []
  | c :: cs => walk c ++ walks cs
end

mutual
/-- node.go:257-271 Depth. -/
def depth : Node → Nat
  | .mk b p cs => if cs.length = 0 then 0 else maxDepth cs + 1
/-- node.go:262-268: the loop for the deepest child. -/
def maxDepth : List Node → Nat
  | [] => 0
  | c :: cs => if depth c > maxDepth cs then depth c else maxDepth cs
end

mutual
/-- node.go:278-284 NodeCount. -/
def nodeCount : Node → Nat
  | .mk b p cs => 1 + nodeCounts cs
/-- node.go:280-282. -/
def nodeCounts : List Node → Nat
  | [] => 0
  | c :: cs => nodeCount c + nodeCounts cs
end

/-! ### Sizes a box reports about itself -/

/-- model/box.go:197-214 ContentSize (byte lengths). -/
def Box.contentSize (b : Box) : Nat × Nat :=
  (maxOf ((splitLines b.content).map byteLen), (splitLines b.content).length)

/-- model/box.go:226-234 PaddedSize. -/
def Box.paddedSize (b : Box) : Nat × Nat :=
  (b.contentSize.1 + b.padding.horizontal, b.contentSize.2 + b.padding.vertical)

/-- model/box.go:248-261 BorderedSize. -/
def Box.borderedSize (b : Box) : Nat × Nat :=
  if b.border then (b.paddedSize.1 + 2, b.paddedSize.2 + 2) else b.paddedSize

/-- model/box.go:277-285 TotalSize. -/
def Box.totalSize (b : Box) : Nat × Nat :=
  (b.borderedSize.1 + b.margin.horizontal, b.borderedSize.2 + b.margin.vertical)

end Phoenix.Layout
