/-
Model of clipboard/internal/infrastructure/native/clipboard_windows.go: the Windows provider, with
every system call it makes free to fail, the 16-bit units it puts in global memory, and the memory
that lies behind the Go slice it copies from.

A Go string holding valid UTF-8 is a list of Unicode scalar values, which is what `Char` is.
Simplification: a Go string with invalid bytes (decoded by Go to U+FFFD) is not represented.
-/
set_option linter.unusedVariables false

namespace Phoenix.Clip.Win

/-- clipboard_windows.go:159-173 stringToUTF16Ptr, one turn of the loop: `r >> 10` and `r & 0x3FF`
are the Go operations. -/
def unitsOf (c : Char) : List Nat :=
  if c.toNat < 0x10000 then [c.toNat]
  else [0xD800 + ((c.toNat - 0x10000) >>> 10), 0xDC00 + ((c.toNat - 0x10000) &&& 0x3FF)]

/-- clipboard_windows.go:159-178 stringToUTF16Ptr: all units, then the terminating zero. -/
def encode (text : List Char) : List Nat := text.flatMap unitsOf ++ [0]

/-- Go `len(text)`: the number of UTF-8 bytes. -/
def byteLen (text : List Char) : Nat := (text.map Char.utf8Size).sum

/-- Go `string([]rune{r})`: a rune that is no Unicode scalar value becomes U+FFFD.
Go language; clipboard/internal/infrastructure/native/clipboard_windows.go:185-227. -/
def runeToChar (r : Nat) : Char := if h : r.isValidChar then Char.ofNatAux r h else Char.ofNat 0xFFFD

/-- clipboard_windows.go:205-224 utf16UintptrToString, the decoding loop. -/
def decode : List Nat → List Char
  | [] => []
  | [r] => [runeToChar r]
  | r :: low :: rest =>
    if 0xD800 ≤ r ∧ r < 0xDC00 ∧ 0xDC00 ≤ low ∧ low < 0xE000 then
      runeToChar ((((r - 0xD800) <<< 10) ||| (low - 0xDC00)) + 0x10000) :: decode rest
    else runeToChar r :: decode (low :: rest)

/-- clipboard_windows.go:185-227 utf16UintptrToString: the units up to the first zero (the `for`
loop of lines 193-195), decoded. -/
def readText (mem : List Nat) : List Char := decode (mem.takeWhile (· != 0))

/-- clipboard_windows.go:100 and 234-240: the number of units `copyMemoryFromUintptr` copies,
`((len(text)+1)*2)/2`. -/
def copied (text : List Char) : Nat := (byteLen text + 1) * 2 / 2

/-- clipboard_windows.go:234-240 copyMemoryFromUintptr: what arrives in global memory. `garbage` is
what happens to lie behind the Go slice, which `unsafe.Slice(src, size/2)` also covers. -/
def copy (garbage : Nat → Nat) (text : List Char) : List Nat :=
  (encode text ++ (List.range (copied text)).map garbage).take (copied text)

/-- What the provider and the system hold.
Environment; clipboard/internal/infrastructure/native/clipboard_windows.go:62-146. -/
structure Sys where
  /-- the CF_UNICODETEXT block the clipboard owns -/
  clip : Option (List Nat)
  /-- this process has the clipboard open -/
  isOpen : Bool
  /-- global blocks this process allocated, and neither freed nor handed over -/
  owned : Nat
  /-- global blocks locked by this process -/
  locks : Nat
  deriving Repr, DecidableEq

/-- Which system calls succeed. Environment; clipboard/internal/infrastructure/native/clipboard_windows.go:62-146. -/
structure Calls where
  openC : Bool
  getData : Bool
  lock : Bool
  alloc : Bool
  empty : Bool
  setData : Bool
  deriving Repr, DecidableEq

/-- Every call succeeds. Environment; clipboard/internal/infrastructure/native/clipboard_windows.go:62-146. -/
def allOk : Calls := ⟨true, true, true, true, true, true⟩

/-- clipboard_windows.go:61-87 Provider.Read; `none` is an error. `behind` is what lies behind the
block (read only if the block holds no zero). NewTextContent refuses the empty text
(clipboard_content.go:33-35). The deferred CloseClipboard and GlobalUnlock always succeed. -/
def read (k : Calls) (behind : List Nat) (s : Sys) : Sys × Option (List Char) :=
  if !k.openC then (s, none)
  else
    let s := { s with isOpen := true }
    match s.clip, k.getData with
    | some mem, true =>
      if !k.lock then ({ s with isOpen := false }, none)
      else
        let s := { s with locks := s.locks + 1 }
        let text := readText (mem ++ behind)
        let s := { s with locks := s.locks - 1 }
        ({ s with isOpen := false }, if text = [] then none else some text)
    | _, _ => ({ s with isOpen := false }, none)

/-- clipboard_windows.go:90-145 Provider.Write; the result is `true` when it returns nil.
`content = none`: a nil content, or one whose Text() fails because it is not text. A successful
SetClipboardData hands the block to the system; EmptyClipboard drops the block the clipboard held. -/
def write (k : Calls) (garbage : Nat → Nat) (content : Option (List Char)) (s : Sys) : Sys × Bool :=
  match content with
  | none => (s, false)
  | some text =>
    if !k.alloc then (s, false)
    else
      let s := { s with owned := s.owned + 1 }
      if !k.lock then ({ s with owned := s.owned - 1 }, false)
      else
        let mem := copy garbage text
        if !k.openC then ({ s with owned := s.owned - 1 }, false)
        else
          let s := { s with isOpen := true }
          if !k.empty then ({ s with isOpen := false }, false)
          else
            let s := { s with clip := none }
            if !k.setData then ({ s with isOpen := false }, false)
            else ({ s with clip := some mem, owned := s.owned - 1, isOpen := false }, true)

end Phoenix.Clip.Win
