import Verif.Tea.KeyScreenModel
/-
C189: from the keyboard to the screen.
-/
set_option linter.unusedVariables false
namespace Phoenix.KeyScreen
open Phoenix.Program Phoenix.Inline

variable {α σ Pen : Type}

theorem grown_same {p p' : Program.St α σ} (h : p'.accepted = p.accepted) : Typing.grown p p' = [] := by
  unfold Typing.grown; rw [h, List.drop_length]; rfl

theorem reach_inv {a : App α σ} {view : σ → Str} {size : α → Option (Int × Int)} {cap : Nat} {key : KeyMsg → α}
    {d : Dev Pen} {t0 : TT Pen} {chunks : List (List Nat)} {f : St α σ Pen}
    (h : Reach a view size cap key d t0 chunks f) :
    Typing.Reach a cap key chunks f.s ∧ f.scr = trun d.tw d ({}, t0) (Screen.draws a view size f.s.p.delivered) := by
  induction h with
  | start => exact ⟨.start, rfl⟩
  | step f f' _ st ih =>
    obtain ⟨hr, hs⟩ := ih
    cases st with
    | quiet s' hst hd =>
      refine ⟨.step _ _ hr hst, ?_⟩
      show f.scr = _
      rw [hs, hd]
    | update m hl =>
      have hst : Typing.Step a cap key f.s { f.s with p := finish a f.s.p m } := by
        have := Typing.Step.prog (a := a) (cap := cap) (key := key) f.s _ (.update _ _ hl)
        rw [grown_same (show (finish a f.s.p m).accepted = f.s.p.accepted from rfl), List.append_nil] at this
        exact this
      refine ⟨.step _ _ hr hst, ?_⟩
      have hm : f.s.p.model = f.s.p.delivered.foldl (fun m x => (a.update m x).1) a.init := (Typing.C188_in_order_partial hr).2.2.2.2
      show trun d.tw d f.scr _ = trun d.tw d ({}, t0) (Screen.draws a view size (f.s.p.delivered ++ [m]))
      unfold Screen.draws
      rw [Screen.drawsFrom_snoc, ← hm, ← List.cons_append, Screen.trun_append, hs]; rfl

theorem reach_of_typing (a : App α σ) (view : σ → Str) (size : α → Option (Int × Int)) (cap : Nat) (key : KeyMsg → α)
    (d : Dev Pen) (t0 : TT Pen) (chunks : List (List Nat)) {s : Typing.St α σ} (h : Typing.Reach a cap key chunks s) :
    ∃ f, Reach a view size cap key d t0 chunks f ∧ f.s = s := by
  induction h with
  | start => exact ⟨_, .start, rfl⟩
  | step s s' _ st ih =>
    obtain ⟨f, hf, rfl⟩ := ih
    by_cases hd : s'.p.delivered = f.s.p.delivered
    · exact ⟨_, .step _ _ hf (.quiet _ _ st hd), rfl⟩
    · cases st with
      | prog p' hp =>
        cases hp with
        | update m hl =>
          refine ⟨_, .step _ _ hf (.update _ _ hl), ?_⟩
          rw [grown_same (show (finish a f.s.p m).accepted = f.s.p.accepted from rfl), List.append_nil]
        | recv => exact absurd rfl hd
        | push => exact absurd rfl hd
        | pushed => exact absurd rfl hd
        | result => exact absurd rfl hd
        | deliver => exact absurd rfl hd
      | call p' hc => exact absurd (show p'.delivered = f.s.p.delivered by cases hc <;> rfl) hd
      | read => exact absurd rfl hd
      | eof => exact absurd rfl hd
      | put => exact absurd rfl hd
      | steal => exact absurd rfl hd
      | cancel => exact absurd rfl hd

/-- The model after the keys `ks`: Update folded over their messages. -/
def afterKeys (a : App α σ) (key : KeyMsg → α) (ks : List KeyMsg) : σ :=
  ks.foldl (fun m k => (a.update m (.user (key k))).1) a.init

theorem modelAfter_keys (a : App α σ) (key : KeyMsg → α) (ks : List KeyMsg) :
    Screen.modelAfter a (Typing.keyMsgs key ks) = afterKeys a key ks := by
  unfold Screen.modelAfter Typing.keyMsgs afterKeys
  rw [List.foldl_map]

theorem merge_nil {β : Type} {xs zs ys : List β} (h : Typing.Merge xs ys zs) (hy : ys = []) : zs = xs := by
  induction h with
  | nil => rfl
  | left xs ys zs a _ ih => rw [ih hy]
  | right xs ys zs a _ _ => simp at hy

theorem prefix_keyMsgs (key : KeyMsg → α) {xs : List (Msg α)} {ks : List KeyMsg} (h : xs <+: Typing.keyMsgs key ks) :
    ∃ n, xs = Typing.keyMsgs key (ks.take n) := by
  refine ⟨xs.length, ?_⟩
  have := List.prefix_iff_eq_take.1 h
  rw [this]
  unfold Typing.keyMsgs
  rw [List.map_take, List.length_take, List.length_map]
  simp [Nat.min_assoc]

/-- C189.  Nobody but the keyboard sends messages.  In every execution, at every moment: the terminal shows exactly the
view of the model after some of the first keys of the input, from the row on where the program was started, everything
above as it was; no key is skipped, repeated or reordered.  (For views of a fixed number of lines that fit in the
window.) -/
theorem C189_always {a : App α σ} {view : σ → Str} {size : α → Option (Int × Int)} {cap : Nat} {key : KeyMsg → α}
    {d : Dev Pen} {t0 : TT Pen} {chunks : List (List Nat)} {f : St α σ Pen}
    (h : Reach a view size cap key d t0 chunks f) (hW : 0 < d.W) (h0 : Ready d t0) (n : Nat) (hn : n ≤ d.H)
    (hview : ∀ ys, view (Screen.modelAfter a ys) ≠ [] ∧ (splitLines (view (Screen.modelAfter a ys))).length = n ∧
      ∀ l ∈ splitLines (view (Screen.modelAfter a ys)), GoodLine d l)
    (hsize : ∀ x w h, size x = some (w, h) → (w ≤ 0 ∨ (d.W : Int) ≤ w) ∧ (h ≤ 0 ∨ (n : Int) ≤ h))
    (hothers : f.s.others = []) :
    ∃ k, f.s.p.model = afterKeys a key ((Input.messages chunks).take k) ∧
      Screen.Displayed d t0 f.scr.2 (splitLines (view (afterKeys a key ((Input.messages chunks).take k)))) := by
  obtain ⟨hr, hs⟩ := reach_inv h
  obtain ⟨hpre, hm, hq, hd, hmod⟩ := Typing.C188_in_order_partial hr
  have hacc := merge_nil hm hothers
  have hcons : f.s.p.consumed <+: f.s.typed := ⟨f.s.p.queue, by rw [← hq, hacc]⟩
  obtain ⟨n1, hc⟩ := prefix_keyMsgs key (hcons.trans hpre)
  have hfil : f.s.p.consumed.filter Msg.isUser = f.s.p.consumed := by
    rw [hc]
    apply List.filter_eq_self.2
    intro x hx
    obtain ⟨k, _, rfl⟩ := List.mem_map.1 hx
    rfl
  rw [hfil] at hd
  obtain ⟨k, hk⟩ := prefix_keyMsgs key (List.IsPrefix.trans ⟨_, hd⟩ (hcons.trans hpre))
  have hma : Screen.modelAfter a f.s.p.delivered = afterKeys a key ((Input.messages chunks).take k) := by
    rw [hk, modelAfter_keys]
  refine ⟨k, ?_, ?_⟩
  · rw [← hma]; exact hmod
  · rw [← hma, hs]
    exact Screen.displayed_fixed hW h0 _ n hn hview hsize

/-- C189.  Typing any keys (all but F1-F4; split into chunks anywhere outside escape sequences) into a program nobody
else sends messages to: when the input is read and the program is idle, the terminal shows exactly the view of the model
after exactly these keys.  (No Quit and no Suspend takes the input away: C188.) -/
theorem C189_typed {a : App α σ} {view : σ → Str} {size : α → Option (Int × Int)} {cap : Nat} {key : KeyMsg → α}
    {d : Dev Pen} {t0 : TT Pen} (ks : List Input.Key) (hs : ∀ k ∈ ks, k.Supported) (chunks : List (List Input.Piece))
    (hc : chunks.flatten = ks.flatMap Input.Key.pieces) (he : ∀ x ∈ chunks, Input.EscLast x) {f : St α σ Pen}
    (h : Reach a view size cap key d t0 (chunks.map Input.bytesOf) f) (hW : 0 < d.W) (h0 : Ready d t0) (n : Nat)
    (hn : n ≤ d.H)
    (hview : ∀ ys, view (Screen.modelAfter a ys) ≠ [] ∧ (splitLines (view (Screen.modelAfter a ys))).length = n ∧
      ∀ l ∈ splitLines (view (Screen.modelAfter a ys)), GoodLine d l)
    (hsize : ∀ x w h, size x = some (w, h) → (w ≤ 0 ∨ (d.W : Int) ≤ w) ∧ (h ≤ 0 ∨ (n : Int) ≤ h))
    (hothers : f.s.others = []) (h1 : f.s.stolen = 0) (h2 : f.s.cancelled = false)
    (hidle : f.s.p.loop = .select) (hq : f.s.p.queue = []) (hend : f.s.ended = true) :
    f.s.p.model = afterKeys a key (ks.map Input.Key.msg) ∧
    Screen.Displayed d t0 f.scr.2 (splitLines (view (afterKeys a key (ks.map Input.Key.msg)))) := by
  obtain ⟨hr, hscr⟩ := reach_inv h
  obtain ⟨hm, hmod⟩ := Typing.C188_keys_partial ks hs chunks hc he hr h1 h2 hidle hq hend
  rw [hothers] at hm
  have hd : f.s.p.delivered = Typing.keyMsgs key (ks.map Input.Key.msg) := by
    rw [merge_nil hm rfl, Typing.keyMsgs, List.map_map]; rfl
  have hma : Screen.modelAfter a f.s.p.delivered = afterKeys a key (ks.map Input.Key.msg) := by
    rw [hd, modelAfter_keys]
  refine ⟨by rw [← hma]; exact hmod, ?_⟩
  rw [← hma, hscr]
  exact Screen.displayed_fixed hW h0 _ n hn hview hsize

/-! ### A concrete program: the last key, shown -/

def demoApp : App KeyMsg Char where
  init := '?'
  initCmd := none
  update := fun m x => match x with
    | .user k => (if k.rune = 'b' then 'b' else 'a', none)
    | _ => (m, none)

def demoView (c : Char) : Str := if c = 'b' then ['>', 'b'] else ['>', 'a']

theorem demo_views (c : Char) : demoView c ≠ [] ∧ (splitLines (demoView c)).length = 1 ∧
    ∀ l ∈ splitLines (demoView c), GoodLine demo l := by
  have ga : GoodLine demo ['>', 'a'] := ⟨_, 2, rfl, by decide⟩
  have gb : GoodLine demo ['>', 'b'] := ⟨_, 2, rfl, by decide⟩
  have ea : splitLines ['>', 'a'] = [['>', 'a']] := by decide
  have eb : splitLines ['>', 'b'] = [['>', 'b']] := by decide
  unfold demoView
  split
  · rw [eb]; exact ⟨by simp, rfl, fun l hl => by rw [List.mem_singleton.1 hl]; exact gb⟩
  · rw [ea]; exact ⟨by simp, rfl, fun l hl => by rw [List.mem_singleton.1 hl]; exact ga⟩

/-- Typing "ab" shows ">b" on the row the program was started on. -/
example : ∃ f, Reach demoApp demoView (fun _ => none) 100 id demo demo0 [[97, 98]] f ∧
    Screen.Displayed demo demo0 f.scr.2 [['>', 'b']] := by
  let chunks : List (List Nat) := [[97, 98]]
  have r : Typing.Reach demoApp 100 id chunks (Typing.start demoApp chunks) := .start
  have r := Typing.Reach.step _ _ r (.read _ (some { type := .rune, rune := 'a' }) ⟨[98], []⟩ rfl rfl rfl)
  have r := Typing.Reach.step _ _ r (.put _ { type := .rune, rune := 'a' } rfl rfl (by decide))
  have r := Typing.Reach.step _ _ r (.prog _ _ (.recv _ _ _ rfl rfl))
  have r := Typing.Reach.step _ _ r (.read _ (some { type := .rune, rune := 'b' }) ⟨[], []⟩ rfl rfl rfl)
  have r := Typing.Reach.step _ _ r (.prog _ _ (.update _ _ rfl))
  have r := Typing.Reach.step _ _ r (.put _ { type := .rune, rune := 'b' } rfl rfl (by decide))
  have r := Typing.Reach.step _ _ r (.eof _ rfl rfl rfl)
  have r := Typing.Reach.step _ _ r (.prog _ _ (.recv _ _ _ rfl rfl))
  have r := Typing.Reach.step _ _ r (.prog _ _ (.update _ _ rfl))
  obtain ⟨f, hf, e⟩ := reach_of_typing demoApp demoView (fun _ => none) 100 id demo demo0 chunks r
  refine ⟨f, hf, ?_⟩
  have hk : ∀ k ∈ [Input.Key.text 'a', Input.Key.text 'b'], k.Supported := by
    intro k hk
    simp only [List.mem_cons, List.not_mem_nil, or_false] at hk
    rcases hk with rfl | rfl
    · exact ⟨⟨by decide, by decide⟩, by intro n h; cases h⟩
    · exact ⟨⟨by decide, by decide⟩, by intro n h; cases h⟩
  have := C189_typed (view := demoView) (size := fun _ => none) (d := demo) (t0 := demo0)
    [.text 'a', .text 'b'] hk [[.byte 97, .byte 98]] rfl
    (by
      intro x hx
      rw [List.mem_singleton.1 hx]
      exact Input.EscLast.prepend (l := [97, 98]) (b := []) (by intro a b h; simp at h)) hf (by decide) demo_ready 1 (by decide)
    (fun ys => demo_views _) (fun x w h hx => by cases hx)
    (by rw [e] <;> rfl) (by rw [e] <;> rfl) (by rw [e] <;> rfl) (by rw [e] <;> rfl) (by rw [e] <;> rfl) (by rw [e] <;> rfl)
  exact this.2

end Phoenix.KeyScreen
