import Verif.Clipboard.SelectModel
import Verif.Clipboard.Osc52Props
import Verif.Util
/-
C173-C177: which provider a clipboard uses, and what a program may conclude from it.
-/
set_option linter.unusedVariables false
set_option linter.unusedSimpArgs false
namespace Phoenix.Clip
open Phoenix

/-! ### C173: the builder -/

def customOf : BOp → Option (Provider World)
  | .provider p => some p
  | _ => none
def osc52Of : BOp → Option Bool
  | .osc52 b => some b
  | _ => none
def timeoutOf : BOp → Option Int
  | .timeout t => some t
  | _ => none
def nativeOf : BOp → Option Bool
  | .native b => some b
  | _ => none

/-- The providers given to WithProvider, in the order of the calls. -/
def customs (ops : List BOp) : List (Provider World) := ops.filterMap customOf

theorem builder_customs (ops : List BOp) (b : Builder) :
    (ops.foldl Builder.step b).providers = b.providers ++ customs ops := by
  induction ops generalizing b with
  | nil => simp [customs]
  | cons op ops ih =>
    rw [List.foldl_cons, ih]
    cases op <;> simp [Builder.step, customs, customOf, List.filterMap_cons]

/-- C173.  Whatever calls were made on a builder, in whatever order, the clipboard it builds asks the
custom providers first, in the order they were added, then OSC 52 if the last WithOSC52 said so (it is on
by default), with the timeout of the last WithOSC52Timeout (5 s by default), then the native clipboard if
the last WithNative said so (on by default). -/
theorem C173_chain (ops : List BOp) (w : World) :
    (ops.foldl Builder.step Builder.new).chain w =
      customs ops
        ++ (if lastSaid osc52Of true ops then [osc52Provider (lastSaid timeoutOf 5000 ops)] else [])
        ++ (if lastSaid nativeOf true ops then [nativeProvider (chooseTool w)] else []) := by
  have h1 : (ops.foldl Builder.step Builder.new).osc52Enabled = lastSaid osc52Of true ops :=
    foldl_last Builder.step (·.osc52Enabled) osc52Of (by intro s op; cases op <;> rfl) ops _
  have h2 : (ops.foldl Builder.step Builder.new).osc52Timeout = lastSaid timeoutOf 5000 ops :=
    foldl_last Builder.step (·.osc52Timeout) timeoutOf (by intro s op; cases op <;> rfl) ops _
  have h3 : (ops.foldl Builder.step Builder.new).nativeEnabled = lastSaid nativeOf true ops :=
    foldl_last Builder.step (·.nativeEnabled) nativeOf (by intro s op; cases op <;> rfl) ops _
  unfold Builder.chain
  rw [builder_customs, h1, h2, h3]
  simp [Builder.new]

/-- C173 (errors).  Build fails exactly when nothing is left to ask; otherwise the clipboard starts
without history. -/
theorem C173_build (ops : List BOp) (w : World) :
    ((ops.foldl Builder.step Builder.new).build w = none ↔
      customs ops = [] ∧ lastSaid osc52Of true ops = false ∧ lastSaid nativeOf true ops = false) ∧
    ∀ m, (ops.foldl Builder.step Builder.new).build w = some m →
      m = ⟨(ops.foldl Builder.step Builder.new).chain w, w, false, none⟩ := by
  unfold Builder.build Manager.new
  refine ⟨?_, ?_⟩
  · rw [C173_chain]
    cases h1 : lastSaid osc52Of true ops <;> cases h2 : lastSaid nativeOf true ops <;>
      cases h3 : customs ops <;> simp
  · intro m hm
    split at hm
    · cases hm
    · exact (Option.some.inj hm).symm

/-- C173 (custom providers come first).  A write goes to the first available custom provider, whatever
the built-in ones could do. -/
theorem C173_custom_first (ops : List BOp) (w : World) (p : Provider World) (hp : FirstAvailable (customs ops) w p)
    (m : Manager World) (hm : (ops.foldl Builder.step Builder.new).build w = some m)
    (mime text : Str) (now : Int) (id : Nat) (ht : text ≠ []) :
    (m.writeAs mime text now id).2 = (p.write w ⟨text, mimePlain⟩).2 ∧
    (m.writeAs mime text now id).1.world = (p.write w ⟨text, mimePlain⟩).1 ∧
    svcName m.providers m.world = p.name := by
  have hme := (C173_build ops w).2 m hm
  have hf : FirstAvailable m.providers m.world p := by
    obtain ⟨b, a, e1, e2, e3⟩ := hp
    rw [hme, C173_chain, e1]
    exact ⟨b, a ++ ((if lastSaid osc52Of true ops then [osc52Provider (lastSaid timeoutOf 5000 ops)] else [])
        ++ (if lastSaid nativeOf true ops then [nativeProvider (chooseTool w)] else [])), by simp, e2, e3⟩
  have hw : m.world = w := by rw [hme]
  obtain ⟨e1, e2⟩ := C50_write_first_available m mime text now id p hf ht
  rw [hw] at e1 e2
  refine ⟨e1, e2, ?_⟩
  unfold svcName
  rw [getAvailable_some hf]

/-- A custom provider that always works. -/
def echoProvider (n : String) : Provider World := ⟨n, fun _ => true, fun w => (w, none), fun w _ => (w, true)⟩

example : (([.osc52 false, .provider (echoProvider "a"), .native false, .osc52 true, .timeout 7,
      .provider (echoProvider "b")] : List BOp).foldl Builder.step Builder.new).chain localHost
    = [echoProvider "a", echoProvider "b", osc52Provider 7] := rfl
example : FirstAvailable (customs [.provider (echoProvider "a"), .osc52 false]) localHost (echoProvider "a") :=
  ⟨[], [], rfl, rfl, by simp⟩
example : (([.osc52 false, .native false] : List BOp).foldl Builder.step Builder.new).build localHost = none := rfl

/-! ### C174: the automatic choice -/

/-- The session was reached over SSH: one of the three variables sshd sets is not empty. -/
def InSSH (w : World) : Prop := ∃ n ∈ ["SSH_TTY", "SSH_CLIENT", "SSH_CONNECTION"], w.env n ≠ ""

/-- TERM names a terminal known to understand OSC 52. -/
def KnownTerm (w : World) : Prop := w.env "TERM" ∈ ["xterm", "xterm-256color", "screen", "tmux", "tmux-256color"]

instance (w : World) : Decidable (InSSH w) := by unfold InSSH; infer_instance
instance (w : World) : Decidable (KnownTerm w) := by unfold KnownTerm; infer_instance

theorem ssh_iff (w : World) : w.ssh = true ↔ InSSH w := by
  simp [World.ssh, InSSH, or_assoc]

theorem ssh_false (w : World) (h : ¬ InSSH w) : w.ssh = false := by
  cases e : w.ssh
  · rfl
  · exact absurd ((ssh_iff w).1 e) h

theorem term_iff (w : World) : w.termKnown = true ↔ KnownTerm w := by
  simp [World.termKnown, KnownTerm]

theorem term_false (w : World) (h : ¬ KnownTerm w) : w.termKnown = false := by
  cases e : w.termKnown
  · rfl
  · exact absurd ((term_iff w).1 e) h

/-- The place a clipboard operation goes to. -/
inductive Medium where
  | terminal | wayland | x11
deriving DecidableEq, Repr

/-- The documented choice: over SSH the terminal; otherwise the first native tool found (the Wayland pair,
xclip, xsel); otherwise the terminal if it is known to understand OSC 52.  The name shown to the user and
the place. -/
def documentedChoice (w : World) : String × Option Medium :=
  if InSSH w ∧ w.tty = true then ("OSC52", some .terminal)
  else if w.onPath .wlCopy = true ∧ w.onPath .wlPaste = true then ("Linux Native (Wayland wl-clipboard)", some .wayland)
  else if w.onPath .xclip = true then ("Linux Native (X11 xclip)", some .x11)
  else if w.onPath .xsel = true then ("Linux Native (X11 xsel)", some .x11)
  else if w.tty = true ∧ KnownTerm w then ("OSC52", some .terminal)
  else ("none", none)

/-- What a write to a place may do to the world: nothing but store the text there. -/
def StoredIn (w w' : World) (text : Str) : Medium → Prop
  | .terminal => w' = { w with termOut := w.termOut ++ osc52Sequence text }
  | .wayland => w' = { w with wl := some text }
  | .x11 => w' = { w with x11 := some text }

theorem native_cases (w : World) :
    (w.onPath .wlCopy = true ∧ w.onPath .wlPaste = true ∧ chooseTool w = some .wayland) ∨
    (¬ (w.onPath .wlCopy = true ∧ w.onPath .wlPaste = true) ∧ w.onPath .xclip = true ∧ chooseTool w = some .xclip) ∨
    (¬ (w.onPath .wlCopy = true ∧ w.onPath .wlPaste = true) ∧ ¬ w.onPath .xclip = true ∧ w.onPath .xsel = true ∧
      chooseTool w = some .xsel) ∨
    (¬ (w.onPath .wlCopy = true ∧ w.onPath .wlPaste = true) ∧ ¬ w.onPath .xclip = true ∧ ¬ w.onPath .xsel = true ∧
      chooseTool w = none) := by
  unfold chooseTool
  cases w.onPath .wlCopy <;> cases w.onPath .wlPaste <;> cases w.onPath .xclip <;> cases w.onPath .xsel <;> simp

/-- The provider the default clipboard uses in the world in which it was created. -/
theorem default_first (w : World) :
    (InSSH w ∧ w.tty = true ∧ getAvailable (defaultChain w) w = some (osc52Provider 5000)) ∨
    (¬ (InSSH w ∧ w.tty = true) ∧ ∃ t, chooseTool w = some t ∧
      getAvailable (defaultChain w) w = some (nativeProvider (some t))) ∨
    (¬ (InSSH w ∧ w.tty = true) ∧ chooseTool w = none ∧ w.tty = true ∧ KnownTerm w ∧
      getAvailable (defaultChain w) w = some (osc52Provider 2000)) ∨
    (¬ (InSSH w ∧ w.tty = true) ∧ chooseTool w = none ∧ ¬ (w.tty = true ∧ KnownTerm w) ∧
      getAvailable (defaultChain w) w = none) := by
  by_cases h : InSSH w ∧ w.tty = true
  · left
    refine ⟨h.1, h.2, ?_⟩
    simp [defaultChain, (ssh_iff w).2 h.1, h.2, getAvailable, osc52Provider]
  · right
    have hb : (w.ssh && w.tty) = false := by
      cases hs : w.ssh <;> cases ht : w.tty <;> simp_all [ssh_iff]
    cases ht : chooseTool w with
    | some t =>
      left
      exact ⟨h, t, rfl, by simp [defaultChain, hb, ht, getAvailable, nativeProvider]⟩
    | none =>
      right
      by_cases hk : w.tty = true ∧ KnownTerm w
      · left
        exact ⟨h, rfl, hk.1, hk.2, by
          rw [defaultChain, if_neg (by rw [hb]; decide)]
          simp [ht, getAvailable, nativeProvider, osc52Provider, hk.1, (term_iff w).2 hk.2]⟩
      · right
        refine ⟨h, rfl, hk, ?_⟩
        have : (w.tty && (w.ssh || w.termKnown)) = false := by
          cases hs : w.ssh <;> cases htt : w.tty <;> cases htk : w.termKnown <;> simp_all [ssh_iff, term_iff]
        simp [defaultChain, hb, ht, getAvailable, nativeProvider, osc52Provider, this]

/-- C174.  New() picks the documented provider: GetProviderName, IsAvailable and IsSSH report exactly the
documented choice, for every environment, set of installed tools and standard output. -/
theorem C174_choice (w : World) :
    svcName (newClipboard w).providers w = (documentedChoice w).1 ∧
    svcIsAvailable (newClipboard w).providers w = (documentedChoice w).2.isSome ∧
    (w.ssh = true ↔ InSSH w) := by
  refine ⟨?_, ?_, ssh_iff w⟩
  · unfold documentedChoice svcName newClipboard
    rcases default_first w with ⟨h1, h2, h⟩ | ⟨h1, t, h2, h⟩ | ⟨h1, h2, h3, h4, h⟩ | ⟨h1, h2, h3, h⟩
    · simp [h, h1, h2, osc52Provider]
    · simp only [h, h1, if_false]
      rcases native_cases w with ⟨a, b, c⟩ | ⟨a, b, c⟩ | ⟨a, b, c, d⟩ | ⟨a, b, c, d⟩
      · rw [c] at h2; cases h2; simp [a, b, nativeProvider, nativeName]
      · rw [c] at h2; cases h2; simp [a, b, nativeProvider, nativeName]
      · rw [d] at h2; cases h2; simp [a, b, c, nativeProvider, nativeName]
      · rw [d] at h2; cases h2
    · simp only [h, h1, if_false]
      rcases native_cases w with ⟨a, b, c⟩ | ⟨a, b, c⟩ | ⟨a, b, c, d⟩ | ⟨a, b, c, d⟩
      · rw [c] at h2; cases h2
      · rw [c] at h2; cases h2
      · rw [d] at h2; cases h2
      · simp [a, b, c, h3, h4, osc52Provider]
    · simp only [h, h1, if_false]
      rcases native_cases w with ⟨a, b, c⟩ | ⟨a, b, c⟩ | ⟨a, b, c, d⟩ | ⟨a, b, c, d⟩
      · rw [c] at h2; cases h2
      · rw [c] at h2; cases h2
      · rw [d] at h2; cases h2
      · simp [a, b, c, h3]
  · unfold documentedChoice svcIsAvailable newClipboard
    rcases default_first w with ⟨h1, h2, h⟩ | ⟨h1, t, h2, h⟩ | ⟨h1, h2, h3, h4, h⟩ | ⟨h1, h2, h3, h⟩
    · simp [h, h1, h2, osc52Provider]
    · simp only [h, h1, if_false]
      rcases native_cases w with ⟨a, b, c⟩ | ⟨a, b, c⟩ | ⟨a, b, c, d⟩ | ⟨a, b, c, d⟩
      · simp [a, b]
      · simp [a, b]
      · simp [a, b, c]
      · rw [d] at h2; cases h2
    · simp only [h, h1, if_false]
      rcases native_cases w with ⟨a, b, c⟩ | ⟨a, b, c⟩ | ⟨a, b, c, d⟩ | ⟨a, b, c, d⟩
      · rw [c] at h2; cases h2
      · rw [c] at h2; cases h2
      · rw [d] at h2; cases h2
      · simp [a, b, c, h3, h4]
    · simp only [h, h1, if_false]
      rcases native_cases w with ⟨a, b, c⟩ | ⟨a, b, c⟩ | ⟨a, b, c, d⟩ | ⟨a, b, c, d⟩
      · rw [c] at h2; cases h2
      · rw [c] at h2; cases h2
      · rw [d] at h2; cases h2
      · simp [a, b, c, h3]

theorem writeAs_world {σ : Type} (m : Manager σ) (mime text : Str) (now : Int) (id : Nat) :
    (m.writeAs mime text now id).1.world = (svcWriteText m.providers m.world text).1 ∧
    (m.writeAs mime text now id).2 = (svcWriteText m.providers m.world text).2 := by
  have hrec : ∀ (m : Manager σ), (m.record text mime now id).world = m.world := by
    intro m; unfold Manager.record; (repeat' split) <;> rfl
  unfold Manager.writeAs
  simp only
  split
  · rename_i h; exact ⟨hrec _, h.symm⟩
  · rename_i h; exact ⟨rfl, by simpa using h⟩

/-- C174 (the name is the place).  A Write of the default clipboard touches nothing but the place its
provider name stands for: it either stores the text there or changes nothing at all; a successful one has
stored it, and without a provider it fails. -/
theorem C174_place (w : World) (mime text : Str) (now : Int) (id : Nat) :
    (∀ m, (documentedChoice w).2 = some m →
      (((newClipboard w).writeAs mime text now id).1.world = w ∧ ((newClipboard w).writeAs mime text now id).2 = false) ∨
      StoredIn w ((newClipboard w).writeAs mime text now id).1.world text m) ∧
    ((documentedChoice w).2 = none →
      ((newClipboard w).writeAs mime text now id).1.world = w ∧ ((newClipboard w).writeAs mime text now id).2 = false) := by
  obtain ⟨e1, e2⟩ := writeAs_world (newClipboard w) mime text now id
  rw [e1, e2]
  show (∀ m, (documentedChoice w).2 = some m →
      ((svcWriteText (defaultChain w) w text).1 = w ∧ (svcWriteText (defaultChain w) w text).2 = false) ∨
      StoredIn w (svcWriteText (defaultChain w) w text).1 text m) ∧
    ((documentedChoice w).2 = none →
      (svcWriteText (defaultChain w) w text).1 = w ∧ (svcWriteText (defaultChain w) w text).2 = false)
  by_cases ht : text = []
  · subst ht
    have : svcWriteText (defaultChain w) w [] = (w, false) := rfl
    rw [this]
    exact ⟨fun _ _ => Or.inl ⟨rfl, rfl⟩, fun _ => ⟨rfl, rfl⟩⟩
  · have key : ∀ p, getAvailable (defaultChain w) w = some p →
        svcWriteText (defaultChain w) w text = p.write w ⟨text, mimePlain⟩ := by
      intro p hp
      simp [svcWriteText, newTextContent, ht, svcWrite, hp]
    have osc : ∀ T, ((((osc52Provider T).write w ⟨text, mimePlain⟩).1 = w ∧
        ((osc52Provider T).write w ⟨text, mimePlain⟩).2 = false) ∨
        StoredIn w ((osc52Provider T).write w ⟨text, mimePlain⟩).1 text .terminal) := by
      intro T
      simp only [osc52Provider]
      split
      · right; rfl
      · left; exact ⟨rfl, rfl⟩
    unfold documentedChoice
    rcases default_first w with ⟨h1, h2, h⟩ | ⟨h1, t, h2, h⟩ | ⟨h1, h2, h3, h4, h⟩ | ⟨h1, h2, h3, h⟩
    · rw [key _ h]
      simp only [h1, h2, and_self, if_true]
      exact ⟨fun m hm => by cases hm; exact osc _, fun hm => by cases hm⟩
    · rw [key _ h]
      simp only [h1, if_false]
      have hn : (nativeProvider (some t)).write w ⟨text, mimePlain⟩ = t.put w text := by
        simp [nativeProvider, Content.text, isTextMime]
      rw [hn]
      rcases native_cases w with ⟨a, b, c⟩ | ⟨a, b, c⟩ | ⟨a, b, c, d⟩ | ⟨a, b, c, d⟩
      · rw [c] at h2; cases h2
        simp only [a, b, and_self, if_true, NativeTool.put]
        refine ⟨fun m hm => ?_, fun hm => by cases hm⟩
        cases hm
        split
        · right; rfl
        · left; exact ⟨rfl, rfl⟩
      · rw [c] at h2; cases h2
        simp only [a, b, if_false, if_true, NativeTool.put]
        refine ⟨fun m hm => ?_, fun hm => by cases hm⟩
        cases hm
        split
        · right; rfl
        · left; exact ⟨rfl, rfl⟩
      · rw [d] at h2; cases h2
        simp only [a, b, c, if_false, if_true, NativeTool.put]
        refine ⟨fun m hm => ?_, fun hm => by cases hm⟩
        cases hm
        split
        · right; rfl
        · left; exact ⟨rfl, rfl⟩
      · rw [d] at h2; cases h2
    · rw [key _ h]
      rcases native_cases w with ⟨a, b, c⟩ | ⟨a, b, c⟩ | ⟨a, b, c, d⟩ | ⟨a, b, c, d⟩
      · rw [c] at h2; cases h2
      · rw [c] at h2; cases h2
      · rw [d] at h2; cases h2
      · simp only [h1, a, b, c, if_false, Bool.false_eq_true]
        rw [if_pos ⟨h3, h4⟩]
        exact ⟨fun m hm => by cases hm; exact osc _, fun hm => by cases hm⟩
    · rcases native_cases w with ⟨a, b, c⟩ | ⟨a, b, c⟩ | ⟨a, b, c, d⟩ | ⟨a, b, c, d⟩
      · rw [c] at h2; cases h2
      · rw [c] at h2; cases h2
      · rw [d] at h2; cases h2
      · simp only [h1, a, b, c, h3, if_false, Bool.false_eq_true]
        refine ⟨fun m hm => (by cases hm), fun _ => ?_⟩
        simp [svcWriteText, newTextContent, ht, svcWrite, h]

example : documentedChoice sshHost = ("OSC52", some .terminal) ∧
    documentedChoice localHost = ("Linux Native (X11 xclip)", some .x11) := by decide
example : documentedChoice { localHost with onPath := fun _ => false } = ("OSC52", some .terminal) ∧
    documentedChoice { localHost with onPath := fun _ => false, tty := false } = ("none", none) := by decide

/-! ### C175: falling back -/

/-- The documented fallback ("Automatic fallback (native → OSC 52 → none)"; "Try each provider in order"):
if some provider of the chain is available and would take the text, Write succeeds. -/
def C175_fallback_statement : Prop :=
  ∀ (w : World) (text : Str) (now : Int) (id : Nat), text ≠ [] →
    (∃ p ∈ (newClipboard w).providers, p.isAvailable w = true ∧ (p.write w ⟨text, mimePlain⟩).2 = true) →
    ((newClipboard w).writeAs mimePlain text now id).2 = true

/-- A text console (no X server) of a machine on which xclip happens to be installed. -/
def consoleHost : World := { localHost with x11Up := false }

/-- Refuted: xclip is installed but there is no display.  Write fails, although the next provider of the
chain is available and would take the text. -/
theorem C175_fallback_refuted : ¬ C175_fallback_statement := by
  intro h
  have := h consoleHost [97] 0 0 (by decide) ⟨osc52Provider 2000, by
    have : (newClipboard consoleHost).providers = [nativeProvider (some .xclip), osc52Provider 2000] := rfl
    rw [this]; simp, by decide, by decide⟩
  exact absurd this (by decide)

/-- The same between native tools: with wl-clipboard and xclip installed in an X11 session without a
Wayland compositor, every Write and every Read fails, whatever text and whatever xclip could do. -/
theorem C175_wayland_tools_refuted (w : World) (hs : ¬ (InSSH w ∧ w.tty = true))
    (h1 : w.onPath .wlCopy = true) (h2 : w.onPath .wlPaste = true) (hdown : w.wlUp = false)
    (text : Str) (now : Int) (id : Nat) :
    ((newClipboard w).writeAs mimePlain text now id).2 = false ∧ (newClipboard w).read.2 = none ∧
    svcIsAvailable (newClipboard w).providers w = true := by
  have hc : chooseTool w = some .wayland := by simp [chooseTool, h1, h2]
  rcases default_first w with ⟨a, b, h⟩ | ⟨a, t, b, h⟩ | ⟨a, b, _⟩ | ⟨a, b, _⟩
  · exact absurd ⟨a, b⟩ hs
  · rw [hc] at b; cases b
    rw [(writeAs_world _ _ _ _ _).2]
    show (svcWriteText (defaultChain w) w text).2 = false ∧ (svcReadText (defaultChain w) w).2 = none ∧
      svcIsAvailable (defaultChain w) w = true
    refine ⟨?_, ?_, by simp [svcIsAvailable, h]⟩
    · by_cases ht : text = []
      · subst ht; rfl
      · simp [svcWriteText, newTextContent, ht, svcWrite, h, nativeProvider, Content.text, isTextMime, NativeTool.put, hdown]
    · simp [svcReadText, svcRead, h, nativeProvider, NativeTool.get, hdown]
  · rw [hc] at b; cases b
  · rw [hc] at b; cases b

/-- C175, what holds.  Outside SSH, with a tool installed, a Write of a non-empty text succeeds exactly
when the display server of the chosen tool can be reached. -/
theorem C175_exact_partial (w : World) (hs : ¬ (InSSH w ∧ w.tty = true)) (text : Str) (ht : text ≠ []) (now : Int) (id : Nat)
    (m : Medium) (hm : (documentedChoice w).2 = some m) (hnt : m ≠ .terminal) :
    ((newClipboard w).writeAs mimePlain text now id).2 = true ↔
      (m = .wayland ∧ w.wlUp = true) ∨ (m = .x11 ∧ w.x11Up = true) := by
  rw [(writeAs_world _ _ _ _ _).2]
  show (svcWriteText (defaultChain w) w text).2 = true ↔ _
  unfold documentedChoice at hm
  simp only [hs, if_false] at hm
  have key : ∀ t, chooseTool w = some t → (svcWriteText (defaultChain w) w text).2 = (t.put w text).2 := by
    intro t h2
    rcases default_first w with ⟨a, b, h⟩ | ⟨a, t', b, h⟩ | ⟨a, b, _⟩ | ⟨a, b, _⟩
    · exact absurd ⟨a, b⟩ hs
    · rw [h2] at b; cases b
      simp [svcWriteText, newTextContent, ht, svcWrite, h, nativeProvider, Content.text, isTextMime]
    · rw [h2] at b; cases b
    · rw [h2] at b; cases b
  rcases native_cases w with ⟨a, b, c⟩ | ⟨a, b, c⟩ | ⟨a, b, c, d⟩ | ⟨a, b, c, d⟩
  · rw [key _ c]
    simp only [a, b, and_self, if_true] at hm
    cases hm
    simp only [NativeTool.put]
    split <;> simp_all
  · rw [key _ c]
    simp only [a, b, if_false, if_true] at hm
    cases hm
    simp only [NativeTool.put]
    split <;> simp_all
  · rw [key _ d]
    simp only [a, b, c, if_false, if_true] at hm
    cases hm
    simp only [NativeTool.put]
    split <;> simp_all
  · simp only [a, b, c, if_false, Bool.false_eq_true] at hm
    split at hm
    · cases hm; exact absurd rfl hnt
    · cases hm

example : ¬ (InSSH consoleHost ∧ consoleHost.tty = true) ∧ (documentedChoice consoleHost).2 = some .x11 := by decide
example : ¬ (InSSH { localHost with onPath := fun _ => true } ∧ localHost.tty = true) := by decide

/-! ### C176: the result of Write -/

/-- The text has arrived at the place: the display server holds it, or the terminal has received its
OSC 52 sequence. -/
def Delivered (w w' : World) (text : Str) : Medium → Prop
  | .terminal => w'.termOut = w.termOut ++ osc52Sequence text
  | .wayland => w'.wl = some text
  | .x11 => w'.x11 = some text

/-- The full claim: Write reports success exactly when it delivered the text. -/
def C176_statement : Prop :=
  ∀ (w : World) (m : Medium) (text : Str) (now : Int) (id : Nat), (documentedChoice w).2 = some m →
    ((newClipboard w).writeAs mimePlain text now id).1.world = w ∧ ((newClipboard w).writeAs mimePlain text now id).2 = false ∨
    StoredIn w ((newClipboard w).writeAs mimePlain text now id).1.world text m ∧
      ((newClipboard w).writeAs mimePlain text now id).2 = true

/-- C176, what holds.  A Write that reports success has delivered the text to the place the provider name
stands for. -/
theorem C176_success_partial (w : World) (m : Medium) (text : Str) (now : Int) (id : Nat)
    (hm : (documentedChoice w).2 = some m) (h : ((newClipboard w).writeAs mimePlain text now id).2 = true) :
    Delivered w ((newClipboard w).writeAs mimePlain text now id).1.world text m := by
  rcases (C174_place w mimePlain text now id).1 m hm with ⟨_, h2⟩ | hst
  · rw [h] at h2; cases h2
  · cases m <;> (unfold StoredIn at hst; unfold Delivered; rw [hst])

/-- C176 (native).  For the native tools the report is exact: a failure changed nothing. -/
theorem C176_native_partial (w : World) (m : Medium) (text : Str) (now : Int) (id : Nat)
    (hm : (documentedChoice w).2 = some m) (hnt : m ≠ .terminal) (ht : text ≠ [])
    (h : ((newClipboard w).writeAs mimePlain text now id).2 = false) :
    ((newClipboard w).writeAs mimePlain text now id).1.world = w := by
  by_cases hs : InSSH w ∧ w.tty = true
  · unfold documentedChoice at hm
    rw [if_pos hs] at hm
    cases hm; exact absurd rfl hnt
  · have hx := C175_exact_partial w hs text ht now id m hm hnt
    rw [(writeAs_world _ _ _ _ _).1]
    rw [(writeAs_world _ _ _ _ _).2] at h hx
    rcases default_first w with ⟨a, b, _⟩ | ⟨a, t, b, hg⟩ | ⟨a, b, c, d, _⟩ | ⟨a, b, c, _⟩
    · exact absurd ⟨a, b⟩ hs
    · have e : svcWriteText (defaultChain w) w text = t.put w text := by
        simp [svcWriteText, newTextContent, ht, svcWrite, hg, nativeProvider, Content.text, isTextMime]
      have h' : (svcWriteText (defaultChain w) w text).2 = false := h
      show (svcWriteText (defaultChain w) w text).1 = w
      rw [e] at h' ⊢
      cases t <;> simp only [NativeTool.put] at h' ⊢ <;> split at h' <;> simp_all
    all_goals
      exfalso
      unfold documentedChoice at hm
      rw [if_neg hs] at hm
      rcases native_cases w with ⟨a', b', c'⟩ | ⟨a', b', c'⟩ | ⟨a', b', c', d'⟩ | ⟨a', b', c', d'⟩
      · rw [c'] at b; cases b
      · rw [c'] at b; cases b
      · rw [d'] at b; cases b
      · simp only [a', b', c', if_false, Bool.false_eq_true] at hm
        split at hm
        · cases hm; exact absurd rfl hnt
        · cases hm

/-- Refuted, for every text: in an SSH session on a terminal that cannot be synced (on Linux no terminal
can), the terminal receives the complete sequence, Write reports an error, and with history enabled the
text is not recorded. -/
theorem C176_sync_refuted (w : World) (hssh : InSSH w) (htty : w.tty = true) (hw : w.ttyWriteOk = true)
    (hsync : w.syncOk = false) (text : Str) (ht : text ≠ []) (en : Bool) (hist : Option History) (now : Int) (id : Nat) :
    ((Manager.mk (defaultChain w) w en hist).writeAs mimePlain text now id).2 = false ∧
    Delivered w ((Manager.mk (defaultChain w) w en hist).writeAs mimePlain text now id).1.world text .terminal ∧
    ((Manager.mk (defaultChain w) w en hist).writeAs mimePlain text now id).1.history = hist := by
  rcases default_first w with ⟨a, b, h⟩ | ⟨a, _⟩ | ⟨a, _⟩ | ⟨a, _⟩
  · have e : svcWriteText (defaultChain w) w text =
        ({ w with termOut := w.termOut ++ osc52Sequence text }, false) := by
      simp [svcWriteText, newTextContent, ht, svcWrite, h, osc52Provider, hw, hsync]
    unfold Manager.writeAs Delivered
    simp only [e]
    simp
  · exact absurd ⟨hssh, htty⟩ a
  · exact absurd ⟨hssh, htty⟩ a
  · exact absurd ⟨hssh, htty⟩ a

theorem C176_refuted : ¬ C176_statement := by
  intro h
  have := h { sshHost with syncOk := false } .terminal [97] 0 0 (by decide)
  have h2 := C176_sync_refuted { sshHost with syncOk := false } (by decide) rfl rfl rfl [97] (by decide) false none 0 0
  rcases this with ⟨h3, _⟩ | ⟨_, h3⟩
  · have e : ((newClipboard { sshHost with syncOk := false }).writeAs mimePlain [97] 0 0).1.world.termOut ≠ [] := by decide
    rw [h3] at e
    exact e rfl
  · have e : ((newClipboard { sshHost with syncOk := false }).writeAs mimePlain [97] 0 0).2 = false := h2.1
    rw [e] at h3; cases h3

example : InSSH sshHost ∧ sshHost.tty = true ∧ sshHost.ttyWriteOk = true := by decide

/-! ### C177: the package functions -/

theorem pkg_run (ps : List (Provider World)) (w0 w : World) (ops : List POp) (now : Int) (id : Nat) :
    (Pkg.mk (some ps) w).run ops = (Manager.mk ps w false none).runR now id ops := by
  induction ops generalizing w with
  | nil => rfl
  | cons op ops ih =>
    cases op with
    | read =>
      simp only [Pkg.run, Manager.runR, Pkg.step, Pkg.ensure, Manager.stepR, Manager.read]
      rw [ih]
    | write text =>
      simp only [Pkg.run, Manager.runR, Pkg.step, Pkg.ensure, Manager.stepR]
      rw [ih]
      unfold Manager.writeAs
      simp only [Manager.record]
      split <;> simp_all
    | isAvailable =>
      simp only [Pkg.run, Manager.runR, Pkg.step, Pkg.ensure, Manager.stepR]
      rw [ih]
    | name =>
      simp only [Pkg.run, Manager.runR, Pkg.step, Pkg.ensure, Manager.stepR]
      rw [ih]
    | world f =>
      simp only [Pkg.run, Manager.runR, Pkg.step, Manager.stepR]
      rw [ih]

/-- C177.  The package-level Read, Write, IsAvailable and GetProviderName behave, for every sequence of
calls and every behaviour of the outside world, like the methods of one Clipboard made by New() when the
program started. -/
theorem C177_one_clipboard (w : World) (ops : List POp) (now : Int) (id : Nat) :
    (Pkg.init w).run ops = (newClipboard w).runR now id ops := by
  have h : (Pkg.init w) = ⟨some (defaultChain w), w⟩ := by
    unfold Pkg.init newChain Manager.new
    rw [if_neg (by unfold defaultChain; split <;> simp)]
    rfl
  rw [h]
  exact pkg_run _ w w ops now id

/-- C177 (if init had failed).  Without a global clipboard the first call creates one from the environment
of that moment; from then on it is one clipboard again. -/
theorem C177_late (w : World) (ops : List POp) (hops : ∀ op ∈ ops.head?, ∀ f, op ≠ .world f) (now : Int) (id : Nat) :
    (Pkg.mk none w).run ops = (newClipboard w).runR now id ops := by
  rw [← C177_one_clipboard]
  cases ops with
  | nil => rfl
  | cons op ops =>
    have h : ∀ q : Pkg, q.ensure = Pkg.init w → q.world = w → (op = .read ∨ (∃ t, op = .write t) ∨ op = .isAvailable ∨ op = .name) →
        q.step op = (Pkg.init w).step op := by
      intro q hq hqw hop
      have hi : (Pkg.init w).ensure = Pkg.init w := by
        unfold Pkg.init newChain Manager.new
        rw [if_neg (by unfold defaultChain; split <;> simp)]
        rfl
      have hg : (Pkg.init w).global = some (defaultChain w) := by
        unfold Pkg.init newChain Manager.new
        rw [if_neg (by unfold defaultChain; split <;> simp)]
        rfl
      rcases hop with rfl | ⟨t, rfl⟩ | rfl | rfl <;>
        simp only [Pkg.step, hq, hi, hg, hqw] <;> rfl
    have hstep : (Pkg.mk none w).step op = (Pkg.init w).step op := by
      apply h _ rfl rfl
      cases op with
      | read => simp
      | write t => simp
      | isAvailable => simp
      | name => simp
      | world f => exact absurd rfl (hops (.world f) (by simp) f)
    simp only [Pkg.run, hstep]

example : (Pkg.init localHost).run [.write [104, 105], .read, .name, .world (fun w => { w with x11Up := false }), .read, .isAvailable] =
    [.done true, .text (some [104, 105]), .name "Linux Native (X11 xclip)", .unit, .text none, .avail true] := by decide

end Phoenix.Clip
