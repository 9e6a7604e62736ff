import Verif.Tea.ScreenModel
/-
C185: what an inline program shows.  C186: what a program on the alternate screen shows.
C187: where the shell continues after an inline program.
-/
set_option linter.unusedVariables false
namespace Phoenix.Screen
open Phoenix.Program Phoenix.Inline

variable {α σ Pen : Type}

/-! ### Specification -/

/-- The terminal shows exactly `lines`, each as it looks on its own, from the row on where the program was started
(`t0`); everything above is as it was, everything below is empty; all lines are within the window. -/
structure Displayed (d : Dev Pen) (t0 t : TT Pen) (lines : List Str) : Prop where
  shown : ∀ i l, lines[i]? = some l → ∃ k, Paint d l (t.rows (t0.row + i)) k
  above : ∀ i, i < t0.row → t.rows i = t0.rows i
  below : ∀ i, t0.row + lines.length ≤ i → ∀ j, t.rows i j = Cell.blank d.p0
  onscreen : t.top ≤ t0.row ∧ t0.row + lines.length ≤ t.top + d.H
  cursor : t.row = t0.row + (lines.length - 1) ∧ t.col = 0
  pen : t.pen = d.p0 ∧ t.ps = .normal ∧ t.pend = false

/-- The model after the messages `xs`: Update folded over them. -/
def modelAfter (a : App α σ) (xs : List (Msg α)) : σ := xs.foldl (fun m x => (a.update m x).1) a.init

/-- The window size a message carries. -/
def sizeOf (size : α → Option (Int × Int)) : Msg α → Option (Int × Int)
  | .user a => size a
  | _ => none

/-- The window height the program was told last; 0 if it was never told. -/
def heightAfter (size : α → Option (Int × Int)) (xs : List (Msg α)) : Int :=
  ((xs.filterMap (sizeOf size)).getLast?.map (·.2)).getD 0

/-! ### The drawing history of a program -/

def drawsFrom (a : App α σ) (view : σ → Str) (size : α → Option (Int × Int)) : σ → List (Msg α) → List Op
  | _, [] => []
  | m, x :: xs => frameOps a view size m x ++ drawsFrom a view size (a.update m x).1 xs

/-- Everything the renderer was asked for up to the delivery of `xs`. -/
def draws (a : App α σ) (view : σ → Str) (size : α → Option (Int × Int)) (xs : List (Msg α)) : List Op :=
  .render (view a.init) :: drawsFrom a view size a.init xs

theorem drawsFrom_snoc (a : App α σ) (view : σ → Str) (size : α → Option (Int × Int)) (xs : List (Msg α)) (x : Msg α) :
    ∀ m, drawsFrom a view size m (xs ++ [x]) =
      drawsFrom a view size m xs ++ frameOps a view size (xs.foldl (fun m x => (a.update m x).1) m) x := by
  induction xs with
  | nil => intro m; simp [drawsFrom]
  | cons y ys ih =>
    intro m
    rw [List.cons_append, drawsFrom, drawsFrom, ih, List.append_assoc]; rfl

theorem trun_append (rw : Char → Nat) (d : Dev Pen) (s : R × TT Pen) (a b : List Op) :
    trun rw d s (a ++ b) = trun rw d (trun rw d s a) b := by
  unfold trun; rw [List.foldl_append]

theorem expected_append (rw : Char → Nat) (s : Spec) (a b : List Op) :
    expected rw s (a ++ b) = expected rw (expected rw s a) b := by
  unfold expected; rw [List.foldl_append]

/-- The terminal has received the frames of exactly the delivered messages. -/
theorem freach_inv {a : App α σ} {view : σ → Str} {size : α → Option (Int × Int)} {cap : Nat} {d : Dev Pen}
    {t0 : TT Pen} {f : Full α σ Pen} (h : FReach a view size cap d t0 f) :
    Reach a cap f.st ∧ f.scr = trun d.tw d ({}, t0) (draws a view size f.st.delivered) := by
  induction h with
  | start => exact ⟨.start, rfl⟩
  | step f f' _ st ih =>
    obtain ⟨hr, hs⟩ := ih
    cases st with
    | quiet s' hst hd =>
      refine ⟨.step _ _ hr hst, ?_⟩
      show f.scr = _
      rw [hs, hd]
    | update m hl =>
      refine ⟨.step _ _ hr (.update _ _ hl), ?_⟩
      have hm : f.st.model = f.st.delivered.foldl (fun m x => (a.update m x).1) a.init := (C20_fifo hr).2.2.1
      show trun d.tw d f.scr _ = trun d.tw d ({}, t0) (draws a view size (f.st.delivered ++ [m]))
      unfold draws
      rw [drawsFrom_snoc, ← hm, ← List.cons_append, trun_append, hs]; rfl
    | call s' hc =>
      refine ⟨.call _ _ hr hc, ?_⟩
      have : s'.delivered = f.st.delivered := by cases hc <;> rfl
      show f.scr = _
      rw [hs, this]

/-- Drawing never stands in the way: every execution of the event loop is one of the program with its screen. -/
theorem freach_of_reach (a : App α σ) (view : σ → Str) (size : α → Option (Int × Int)) (cap : Nat) (d : Dev Pen)
    (t0 : TT Pen) {s : St α σ} (h : Reach a cap s) : ∃ f, FReach a view size cap d t0 f ∧ f.st = s := by
  induction h with
  | start => exact ⟨_, .start, rfl⟩
  | step s s' _ st ih =>
    obtain ⟨f, hf, rfl⟩ := ih
    by_cases hd : s'.delivered = f.st.delivered
    · exact ⟨_, .step _ _ hf (.quiet _ _ st hd), rfl⟩
    · cases st with
      | update m hl => exact ⟨_, .step _ _ hf (.update _ _ hl), rfl⟩
      | recv => exact absurd rfl hd
      | push => exact absurd rfl hd
      | pushed => exact absurd rfl hd
      | result => exact absurd rfl hd
      | deliver => exact absurd rfl hd
  | call s s' _ c ih =>
    obtain ⟨f, hf, rfl⟩ := ih
    exact ⟨_, .step _ _ hf (.call _ _ c), rfl⟩

/-! ### What the history amounts to -/

theorem sizeOps_eq (size : α → Option (Int × Int)) (x : Msg α) :
    sizeOps size x = ((sizeOf size x).map fun p => Op.resize p.1 p.2).toList := by
  cases x <;> rfl

theorem expected_frame (a : App α σ) (view : σ → Str) (size : α → Option (Int × Int)) (rw : Char → Nat) (m : σ) (x : Msg α)
    (s : Spec) : (expected rw s (frameOps a view size m x)).height = ((sizeOf size x).map (·.2)).getD s.height ∧
      (expected rw s (frameOps a view size m x)).prev =
        frame (((sizeOf size x).map (·.2)).getD s.height) (view (a.update m x).1) ∧
      (expected rw s (frameOps a view size m x)).stale = false := by
  unfold frameOps
  rw [sizeOps_eq]
  cases sizeOf size x with
  | none => exact ⟨rfl, rfl, rfl⟩
  | some p => exact ⟨rfl, rfl, rfl⟩

/-- The frame the history asks for last: the view of the current model, at the height told last. -/
theorem expected_draws (a : App α σ) (view : σ → Str) (size : α → Option (Int × Int)) (rw : Char → Nat)
    (xs : List (Msg α)) : (expected rw {} (draws a view size xs)).height = heightAfter size xs ∧
      (expected rw {} (draws a view size xs)).prev = frame (heightAfter size xs) (view (modelAfter a xs)) ∧
      (expected rw {} (draws a view size xs)).stale = false := by
  induction xs using Phoenix.snocInd with
  | nil => exact ⟨rfl, rfl, rfl⟩
  | append_singleton xs x ih =>
    have hh : heightAfter size (xs ++ [x]) = ((sizeOf size x).map (·.2)).getD (heightAfter size xs) := by
      unfold heightAfter
      rw [List.filterMap_append]
      cases hx : sizeOf size x with
      | none => simp [hx]
      | some p => simp [hx]
    have hm : modelAfter a (xs ++ [x]) = (a.update (modelAfter a xs) x).1 := by
      unfold modelAfter; rw [List.foldl_append]; rfl
    unfold draws
    rw [drawsFrom_snoc, ← List.cons_append, expected_append]
    obtain ⟨e1, e2, e3⟩ := expected_frame a view size rw (xs.foldl (fun m x => (a.update m x).1) a.init) x
      (expected rw {} (draws a view size xs))
    rw [ih.1, ← hh] at e1 e2
    exact ⟨e1, by rw [hm]; exact e2, e3⟩

theorem drawsFrom_mem (a : App α σ) (view : σ → Str) (size : α → Option (Int × Int)) (xs : List (Msg α)) :
    ∀ (pre : List (Msg α)) (o : Op), o ∈ drawsFrom a view size (modelAfter a pre) xs →
      (∃ ys, o = .render (view (modelAfter a ys))) ∨ ∃ x w h, size x = some (w, h) ∧ o = .resize w h := by
  induction xs with
  | nil => intro pre o h; simp [drawsFrom] at h
  | cons x xs ih =>
    intro pre o h
    have hm : modelAfter a (pre ++ [x]) = (a.update (modelAfter a pre) x).1 := by
      unfold modelAfter; rw [List.foldl_append]; rfl
    rw [drawsFrom, ← hm] at h
    rcases List.mem_append.1 h with h | h
    · rw [frameOps, ← hm, sizeOps_eq] at h
      rcases List.mem_append.1 h with h | h
      · right
        cases x with
        | user y =>
          simp only [Option.mem_toList, Option.map_eq_some_iff, sizeOf] at h
          obtain ⟨p, hp, rfl⟩ := h
          exact ⟨y, p.1, p.2, hp, rfl⟩
        | quit => simp [sizeOf] at h
        | batch => simp [sizeOf] at h
        | seq => simp [sizeOf] at h
      · left; exact ⟨pre ++ [x], List.mem_singleton.1 h⟩
    · exact ih _ o h

theorem draws_mem (a : App α σ) (view : σ → Str) (size : α → Option (Int × Int)) (xs : List (Msg α)) (o : Op)
    (h : o ∈ draws a view size xs) :
    (∃ ys, o = .render (view (modelAfter a ys))) ∨ ∃ x w h, size x = some (w, h) ∧ o = .resize w h := by
  rcases List.mem_cons.1 h with h | h
  · exact Or.inl ⟨[], h⟩
  · exact drawsFrom_mem a view size xs [] o h

theorem frame_le (h : Int) (v : Str) : (frame h v).length ≤ (splitLines v).length := by
  unfold frame; simp only; split
  · rw [List.length_drop]; omega
  · omega

theorem good_history (d : Dev Pen) (ops : List Op) :
    ∀ s : Spec, (s.width ≤ 0 ∨ (d.W : Int) ≤ s.width) →
    (s.disp = s.prev ∧ (∀ l ∈ s.prev, GoodLine d l) ∧ s.prev.length ≤ d.H) →
    (∀ w h, Op.resize w h ∈ ops → w ≤ 0 ∨ (d.W : Int) ≤ w) →
    (∀ v, Op.render v ∈ ops → (∀ l ∈ splitLines v, GoodLine d l) ∧ (splitLines v).length ≤ d.H) →
    (expected d.tw s ops).disp = (expected d.tw s ops).prev ∧
      (∀ l ∈ (expected d.tw s ops).prev, GoodLine d l) ∧ (expected d.tw s ops).prev.length ≤ d.H := by
  induction ops with
  | nil => intro s _ h _ _; exact h
  | cons o os ih =>
    intro s hsz h hr hv
    refine ih (s.step d.tw o) ?_ ?_ (fun w h hm => hr w h (List.mem_cons_of_mem _ hm))
      (fun v hm => hv v (List.mem_cons_of_mem _ hm))
    · cases o with
      | resize w h => exact hr w h (List.mem_cons_self ..)
      | _ => exact hsz
    · cases o with
      | render v =>
        obtain ⟨g, hlen⟩ := hv v (List.mem_cons_self ..)
        have hg : ∀ l ∈ frame s.height v, GoodLine d l := fun l hl => g l (frame_mem hl)
        refine ⟨shown_good d hsz _ hg, hg, ?_⟩
        show (frame s.height v).length ≤ d.H
        have := frame_le s.height v
        omega
      | _ => exact h

/-! ## C185: an inline program shows the view of its current model -/

/-- What the terminal shows after the frames of the messages `xs`. -/
theorem displayed_draws {a : App α σ} {view : σ → Str} {size : α → Option (Int × Int)} {d : Dev Pen}
    {t0 : TT Pen} (hW : 0 < d.W) (h0 : Ready d t0) (xs : List (Msg α))
    (hview : ∀ ys, (∀ l ∈ splitLines (view (modelAfter a ys)), GoodLine d l) ∧
      (splitLines (view (modelAfter a ys))).length ≤ d.H)
    (hsize : ∀ x w h, size x = some (w, h) → w ≤ 0 ∨ (d.W : Int) ≤ w)
    (hsafe : Safe d.tw {} (draws a view size xs)) :
    Displayed d t0 (trun d.tw d ({}, t0) (draws a view size xs)).2
      (frame (heightAfter size xs) (view (modelAfter a xs))) := by
  have hgood : ∀ n, n ≤ (draws a view size xs).length → _ := fun n _ =>
    good_history d ((draws a view size xs).take n) {} (Or.inl (Int.le_refl _))
      ⟨rfl, fun l hl => (by simp at hl), Nat.zero_le _⟩
      (fun w h hm => by
        rcases draws_mem a view size xs _ (List.mem_of_mem_take hm) with ⟨ys, e⟩ | ⟨x, w', h', hx, e⟩
        · cases e
        · cases e; exact hsize x w h hx)
      (fun v hm => by
        rcases draws_mem a view size xs _ (List.mem_of_mem_take hm) with ⟨ys, e⟩ | ⟨x, w', h', hx, e⟩
        · cases e; exact hview ys
        · cases e)
  have inv := screen_general d.tw d hW h0 h0.top (Nat.le_refl _) 0 0 (draws a view size xs) hsafe (by
    intro n hn
    obtain ⟨g1, g2, g3⟩ := hgood n hn
    rw [g1]
    refine ⟨fun l hl => ?_, by omega⟩
    obtain ⟨cells, k, hp, hk⟩ := g2 l hl
    exact ⟨_, cells, k, hp, Nat.le_of_lt hk, rfl⟩)
  have hfull := hgood _ (Nat.le_refl _)
  rw [List.take_length] at hfull
  obtain ⟨g1, g2, g3⟩ := hfull
  have hprev := (expected_draws a view size d.tw xs).2.1
  rw [← hprev]
  refine ⟨?_, inv.above, ?_, ⟨inv.top, ?_⟩, ⟨?_, inv.col⟩, inv.clean.pen, inv.clean.ps, inv.clean.pend⟩
  · intro i l hl
    obtain ⟨cells, k, hp, hk, hrow⟩ := inv.cells i l (by rw [g1]; exact hl)
    obtain ⟨cells', k', hp', hk'⟩ := g2 l (List.mem_of_getElem? hl)
    have heq : k = k' := by
      have a := paint_width d hp
      have b := paint_width d hp'
      omega
    rw [if_pos (by omega)] at hrow
    exact ⟨k, by rw [hrow]; exact hp⟩
  · have := inv.below; rw [g1] at this; exact this
  · have := inv.onscreen; rw [g1] at this; exact this
  · have := inv.row; rw [g1] at this; exact this

/-- C185.  Every execution, at every moment: the terminal shows exactly the view of the current model, which is Update
folded over the delivered messages (the ordinary messages accepted so far, in order, without those still queued or
being handled), below whatever was there before.  For applications whose views have lines that are narrower than the
terminal and close their styles, and fit in the window; if the window is smaller than the view the program is told, the
last lines are shown.  `hsafe` excludes the two defects of C16. -/
theorem C185_program_screen {a : App α σ} {view : σ → Str} {size : α → Option (Int × Int)} {cap : Nat} {d : Dev Pen}
    {t0 : TT Pen} {f : Full α σ Pen} (h : FReach a view size cap d t0 f) (hW : 0 < d.W) (h0 : Ready d t0)
    (hview : ∀ ys, (∀ l ∈ splitLines (view (modelAfter a ys)), GoodLine d l) ∧
      (splitLines (view (modelAfter a ys))).length ≤ d.H)
    (hsize : ∀ x w h, size x = some (w, h) → w ≤ 0 ∨ (d.W : Int) ≤ w)
    (hsafe : Safe d.tw {} (draws a view size f.st.delivered)) :
    f.st.model = modelAfter a f.st.delivered ∧
    f.st.accepted.map (·.2) = f.st.consumed ++ f.st.queue ∧
    f.st.delivered ++ f.st.loop.current = f.st.consumed.filter Msg.isUser ∧
    Displayed d t0 f.scr.2 (frame (heightAfter size f.st.delivered) (view f.st.model)) := by
  obtain ⟨hr, hs⟩ := freach_inv h
  obtain ⟨q1, q2, q3, _, _⟩ := C20_fifo hr
  have hm : f.st.model = modelAfter a f.st.delivered := q3
  refine ⟨hm, q1, q2, ?_⟩
  rw [hs, hm]
  exact displayed_draws hW h0 _ hview hsize hsafe

/-- Histories of frames of equal length are safe. -/
theorem safe_fixed (rw : Char → Nat) (n : Nat) (ops : List Op) : ∀ s : Spec,
    (s.prev.length = n ∨ s.prev = []) → (s.height ≤ 0 ∨ (n : Int) ≤ s.height) →
    (∀ w h, Op.resize w h ∈ ops → h ≤ 0 ∨ (n : Int) ≤ h) →
    (∀ v, Op.render v ∈ ops → v ≠ [] ∧ (splitLines v).length = n) → Safe rw s ops := by
  induction ops with
  | nil => intros; trivial
  | cons o os ih =>
    intro s hp hh hr hv
    have hfr : ∀ v, (splitLines v).length = n → (frame s.height v).length = n := by
      intro v hn
      unfold frame
      simp only
      rw [if_neg (by rw [hn]; omega)]; exact hn
    refine ⟨?_, ih (s.step rw o) ?_ ?_ (fun w h hm => hr w h (List.mem_cons_of_mem _ hm))
      (fun v hm => hv v (List.mem_cons_of_mem _ hm))⟩
    · cases o with
      | render v =>
        obtain ⟨v1, v2⟩ := hv v (List.mem_cons_self ..)
        refine ⟨fun hlt => ?_, fun _ _ => v1⟩
        rw [hfr v v2] at hlt
        rcases hp with hp | hp
        · omega
        · rw [hp] at hlt; exact absurd hlt (Nat.not_lt_zero _)
      | _ => trivial
    · cases o with
      | render v => exact Or.inl (hfr v (hv v (List.mem_cons_self ..)).2)
      | _ => exact hp
    · cases o with
      | resize w h => exact hr w h (List.mem_cons_self ..)
      | _ => exact hh

/-- The same for views of a fixed number of lines. -/
theorem displayed_fixed {a : App α σ} {view : σ → Str} {size : α → Option (Int × Int)} {d : Dev Pen}
    {t0 : TT Pen} (hW : 0 < d.W) (h0 : Ready d t0) (xs : List (Msg α)) (n : Nat) (hn : n ≤ d.H)
    (hview : ∀ ys, view (modelAfter a ys) ≠ [] ∧ (splitLines (view (modelAfter a ys))).length = n ∧
      ∀ l ∈ splitLines (view (modelAfter a ys)), GoodLine d l)
    (hsize : ∀ x w h, size x = some (w, h) → (w ≤ 0 ∨ (d.W : Int) ≤ w) ∧ (h ≤ 0 ∨ (n : Int) ≤ h)) :
    Displayed d t0 (trun d.tw d ({}, t0) (draws a view size xs)).2 (splitLines (view (modelAfter a xs))) := by
  have hr : ∀ w h, Op.resize w h ∈ draws a view size xs → h ≤ 0 ∨ (n : Int) ≤ h := by
    intro w h hm
    rcases draws_mem a view size _ _ hm with ⟨ys, e⟩ | ⟨x, w', h', hx, e⟩
    · cases e
    · cases e; exact (hsize x w h hx).2
  have hsafe : Safe d.tw {} (draws a view size xs) := by
    refine safe_fixed d.tw n _ {} (Or.inr rfl) (Or.inl (Int.le_refl _)) hr ?_
    intro v hm
    rcases draws_mem a view size _ _ hm with ⟨ys, e⟩ | ⟨x, w', h', hx, e⟩
    · cases e; exact ⟨(hview ys).1, (hview ys).2.1⟩
    · cases e
  have hd := displayed_draws hW h0 xs (fun ys => ⟨(hview ys).2.2, by rw [(hview ys).2.1]; exact hn⟩)
    (fun x w h hx => (hsize x w h hx).1) hsafe
  have hh : heightAfter size xs ≤ 0 ∨ (n : Int) ≤ heightAfter size xs := by
    unfold heightAfter
    cases hl : (xs.filterMap (sizeOf size)).getLast? with
    | none => exact Or.inl (Int.le_refl _)
    | some p =>
      have hp := List.mem_of_getLast? hl
      obtain ⟨x, _, hx⟩ := List.mem_filterMap.1 hp
      cases x with
      | user y => exact (hsize y p.1 p.2 hx).2
      | quit => cases hx
      | batch => cases hx
      | seq => cases hx
  have hfr : frame (heightAfter size xs) (view (modelAfter a xs)) = splitLines (view (modelAfter a xs)) := by
    unfold frame
    simp only
    rw [if_neg (by rw [(hview _).2.1]; omega)]
  rw [hfr] at hd
  exact hd

/-- C185.  For an application whose view always has the same number of lines, no more than the window has, nothing else
is needed: in every execution, at every moment, the terminal shows exactly the current view. -/
theorem C185_fixed_height {a : App α σ} {view : σ → Str} {size : α → Option (Int × Int)} {cap : Nat} {d : Dev Pen}
    {t0 : TT Pen} {f : Full α σ Pen} (h : FReach a view size cap d t0 f) (hW : 0 < d.W) (h0 : Ready d t0) (n : Nat)
    (hn : n ≤ d.H)
    (hview : ∀ ys, view (modelAfter a ys) ≠ [] ∧ (splitLines (view (modelAfter a ys))).length = n ∧
      ∀ l ∈ splitLines (view (modelAfter a ys)), GoodLine d l)
    (hsize : ∀ x w h, size x = some (w, h) → (w ≤ 0 ∨ (d.W : Int) ≤ w) ∧ (h ≤ 0 ∨ (n : Int) ≤ h)) :
    f.st.model = modelAfter a f.st.delivered ∧
    Displayed d t0 f.scr.2 (splitLines (view f.st.model)) := by
  obtain ⟨hr, hs⟩ := freach_inv h
  have hm : f.st.model = modelAfter a f.st.delivered := (C20_fifo hr).2.2.1
  refine ⟨hm, ?_⟩
  rw [hs, hm]
  exact displayed_fixed hW h0 _ n hn hview hsize

/-! ### A concrete application: a counter shown on two lines -/

/-- Messages add to the counter; `none` is a window size message. -/
def demoApp : App (Option Nat) Nat where
  init := 0
  initCmd := some (.ret [.user (some 2)])
  update := fun m x => match x with
    | .user (some k) => (m + k, none)
    | _ => (m, none)

/-- "n=" and below it a, b or c. -/
def demoView (m : Nat) : Str :=
  if m = 0 then ['n', '=', '\n', 'a'] else if m = 1 then ['n', '=', '\n', 'b'] else ['n', '=', '\n', 'c']

def demoSize : Option Nat → Option (Int × Int)
  | none => some (80, 24)
  | some _ => none

theorem demoView_cases (m : Nat) : demoView m = ['n', '=', '\n', 'a'] ∨ demoView m = ['n', '=', '\n', 'b'] ∨
    demoView m = ['n', '=', '\n', 'c'] := by
  unfold demoView
  split
  · exact Or.inl rfl
  · split
    · exact Or.inr (Or.inl rfl)
    · exact Or.inr (Or.inr rfl)

/-- The hypotheses of C185_fixed_height hold for it. -/
theorem demo_views (m : Nat) : demoView m ≠ [] ∧ (splitLines (demoView m)).length = 2 ∧
    ∀ l ∈ splitLines (demoView m), GoodLine demo l := by
  have g0 : GoodLine demo ['n', '='] := ⟨_, 2, rfl, by decide⟩
  have ga : GoodLine demo ['a'] := ⟨_, 1, rfl, by decide⟩
  have gb : GoodLine demo ['b'] := ⟨_, 1, rfl, by decide⟩
  have gc : GoodLine demo ['c'] := ⟨_, 1, rfl, by decide⟩
  rcases demoView_cases m with h | h | h <;> rw [h]
  · have e : splitLines ['n', '=', '\n', 'a'] = [['n', '='], ['a']] := by decide
    rw [e]
    refine ⟨by simp, rfl, fun l hl => ?_⟩
    simp only [List.mem_cons, List.not_mem_nil, or_false] at hl
    rcases hl with rfl | rfl <;> assumption
  · have e : splitLines ['n', '=', '\n', 'b'] = [['n', '='], ['b']] := by decide
    rw [e]
    refine ⟨by simp, rfl, fun l hl => ?_⟩
    simp only [List.mem_cons, List.not_mem_nil, or_false] at hl
    rcases hl with rfl | rfl <;> assumption
  · have e : splitLines ['n', '=', '\n', 'c'] = [['n', '='], ['c']] := by decide
    rw [e]
    refine ⟨by simp, rfl, fun l hl => ?_⟩
    simp only [List.mem_cons, List.not_mem_nil, or_false] at hl
    rcases hl with rfl | rfl <;> assumption

theorem demo_sizes : ∀ x w h, demoSize x = some (w, h) → (w ≤ 0 ∨ (demo.W : Int) ≤ w) ∧ (h ≤ 0 ∨ ((2 : Nat) : Int) ≤ h) := by
  intro x w h e
  cases x with
  | none => cases e; exact ⟨Or.inr (by decide), Or.inr (by decide)⟩
  | some k => cases e

/-- An execution: a message and a window size arrive and are handled. -/
def demoSt : St (Option Nat) Nat :=
  { start demoApp with
    model := 1, screen := 1
    accepted := [(.send, .user (some 1)), (.send, .user none)]
    consumed := [.user (some 1), .user none]
    delivered := [.user (some 1), .user none] }

theorem demo_reach : Reach demoApp 3 demoSt := by
  have r0 : Reach demoApp 3 (start demoApp) := .start
  have r1 := Reach.call _ _ r0 (.send _ (.user (some 1)) (by decide))
  have r2 := Reach.step _ _ r1 (.recv _ (.user (some 1)) [] rfl rfl)
  have r3 := Reach.step _ _ r2 (.update _ (.user (some 1)) rfl)
  have r4 := Reach.call _ _ r3 (.send _ (.user none) (by decide))
  have r5 := Reach.step _ _ r4 (.recv _ (.user none) [] rfl rfl)
  exact Reach.step _ _ r5 (.update _ (.user none) rfl)

example : ∃ f, FReach demoApp demoView demoSize 3 demo demo0 f ∧ f.st = demoSt ∧
    Displayed demo demo0 f.scr.2 [['n', '='], ['b']] := by
  obtain ⟨f, hf, e⟩ := freach_of_reach demoApp demoView demoSize 3 demo demo0 demo_reach
  have := (C185_fixed_height hf (by decide) demo_ready 2 (by decide) (fun ys => demo_views _) demo_sizes).2
  refine ⟨f, hf, e, ?_⟩
  rw [e] at this
  exact this

/-! ## C186: a program on the alternate screen -/

/-- All views drawn up to the delivery of `xs`, one after the other. -/
def viewsFrom (a : App α σ) (view : σ → Str) : σ → List (Msg α) → Str
  | _, [] => []
  | m, x :: xs => view (a.update m x).1 ++ viewsFrom a view (a.update m x).1 xs

theorem viewsFrom_snoc (a : App α σ) (view : σ → Str) (xs : List (Msg α)) (x : Msg α) :
    ∀ m, viewsFrom a view m (xs ++ [x]) =
      viewsFrom a view m xs ++ view (a.update (xs.foldl (fun m x => (a.update m x).1) m) x).1 := by
  induction xs with
  | nil => intro m; simp [viewsFrom]
  | cons y ys ih =>
    intro m
    rw [List.cons_append, viewsFrom, viewsFrom, ih, List.append_assoc]; rfl

theorem areach_inv {a : App α σ} {view : σ → Str} {cap : Nat} {d : Dev Pen}
    {t0 : TT Pen} {f : FullAlt α σ Pen} (h : AReach a view cap d t0 f) :
    Reach a cap f.st ∧ f.t = t0.feed d (view a.init ++ viewsFrom a view a.init f.st.delivered) := by
  induction h with
  | start =>
    refine ⟨.start, ?_⟩
    show t0.feed d (view a.init) = t0.feed d (view a.init ++ [])
    rw [List.append_nil]
  | step f f' _ st ih =>
    obtain ⟨hr, hs⟩ := ih
    cases st with
    | quiet s' hst hd =>
      refine ⟨.step _ _ hr hst, ?_⟩
      show f.t = _
      rw [hs, hd]
    | update m hl =>
      refine ⟨.step _ _ hr (.update _ _ hl), ?_⟩
      have hm : f.st.model = f.st.delivered.foldl (fun m x => (a.update m x).1) a.init := (C20_fifo hr).2.2.1
      show f.t.feed d _ = t0.feed d (_ ++ viewsFrom a view a.init (f.st.delivered ++ [m]))
      rw [viewsFrom_snoc, ← hm, ← List.append_assoc, tfeed_append, hs]
    | call s' hc =>
      refine ⟨.call _ _ hr hc, ?_⟩
      have : s'.delivered = f.st.delivered := by cases hc <;> rfl
      show f.t = _
      rw [hs, this]

theorem areach_of_reach (a : App α σ) (view : σ → Str) (cap : Nat) (d : Dev Pen)
    (t0 : TT Pen) {s : St α σ} (h : Reach a cap s) : ∃ f, AReach a view cap d t0 f ∧ f.st = s := by
  induction h with
  | start => exact ⟨_, .start, rfl⟩
  | step s s' _ st ih =>
    obtain ⟨f, hf, rfl⟩ := ih
    by_cases hd : s'.delivered = f.st.delivered
    · exact ⟨_, .step _ _ hf (.quiet _ _ st hd), rfl⟩
    · cases st with
      | update m hl => exact ⟨_, .step _ _ hf (.update _ _ hl), rfl⟩
      | recv => exact absurd rfl hd
      | push => exact absurd rfl hd
      | pushed => exact absurd rfl hd
      | result => exact absurd rfl hd
      | deliver => exact absurd rfl hd
  | call s s' _ c ih =>
    obtain ⟨f, hf, rfl⟩ := ih
    exact ⟨_, .step _ _ hf (.call _ _ c), rfl⟩

/-- C186, full claim: a program on the alternate screen, started on an empty screen with the cursor at its top left,
shows the lines of the view of the current model from the top on, and nothing else. -/
def C186_statement : Prop :=
  ∀ (a : App (Option Nat) Nat) (view : Nat → Str) (cap : Nat) (d : Dev Bool) (t0 : TT Bool)
    (f : FullAlt (Option Nat) Nat Bool), AReach a view cap d t0 f → 0 < d.W → Ready d t0 → t0.row = t0.top →
    (∀ m, (∀ l ∈ splitLines (view m), GoodLine d l) ∧ (splitLines (view m)).length ≤ d.H) →
    (∀ i l, (splitLines (view f.st.model))[i]? = some l → ∃ k, Paint d l (f.t.rows (f.t.top + i)) k) ∧
    (∀ i, (splitLines (view f.st.model)).length ≤ i → ∀ j, f.t.rows (f.t.top + i) j = Cell.blank d.p0)

/-- The cursor at the top left of an empty screen. -/
def empty0 : TT Bool where
  rows := fun _ _ => Cell.blank false
  row := 0
  col := 0
  top := 0
  pend := false
  pen := false
  ps := .normal

theorem empty_ready : Ready demo empty0 := ⟨rfl, rfl, rfl, rfl, by decide, by decide, fun i hi j => rfl⟩

def oneLine (m : Nat) : Str := if m = 0 then ['a'] else ['b']

/-- False for the second frame: after "a" the frame "b" is written behind it. -/
theorem C186_second_frame_refuted : ¬ C186_statement := by
  intro H
  obtain ⟨f, hf, e⟩ := areach_of_reach demoApp oneLine 3 demo empty0 demo_reach
  have h1 := (H demoApp oneLine 3 demo empty0 f hf (by decide) empty_ready rfl (by
    intro m
    have ga : GoodLine demo ['a'] := ⟨_, 1, rfl, by decide⟩
    have gb : GoodLine demo ['b'] := ⟨_, 1, rfl, by decide⟩
    have hh : splitLines (oneLine m) = [['a']] ∨ splitLines (oneLine m) = [['b']] := by
      unfold oneLine
      split
      · left; decide
      · right; decide
    rcases hh with hh | hh <;> rw [hh] <;> refine ⟨fun l hl => ?_, by decide⟩
    · rw [List.mem_singleton.1 hl]; exact ga
    · rw [List.mem_singleton.1 hl]; exact gb)).1 0 ['b'] (by rw [e]; rfl)
  obtain ⟨k, hk⟩ := h1
  have ht := (areach_inv hf).2
  rw [e] at ht
  have hr : (f.t.rows (f.t.top + 0) 0).ch = ['a'] := by rw [ht]; decide
  have hp : (Ln.start demo).run demo ['b'] = some ⟨place (fun _ => Cell.blank false) 0 1 'b' false, 1, false, .normal⟩ := rfl
  have := hp.symm.trans hk
  simp only [Option.some.injEq, Ln.mk.injEq] at this
  have h0 := congrArg Cell.ch (congrFun this.1 0)
  rw [hr] at h0
  revert h0
  decide

/-- False even for the first frame when it has two lines: the line break does not return to the first column in raw
mode. -/
theorem C186_line_break_refuted : ¬ C186_statement := by
  intro H
  have h1 := (H demoApp demoView 3 demo empty0 _ .start (by decide) empty_ready rfl
    (fun m => ⟨(demo_views m).2.2, by rw [(demo_views m).2.1]; decide⟩)).1 1 ['a'] (by decide)
  obtain ⟨k, hk⟩ := h1
  have hr : ((astart demoApp demoView demo empty0).t.rows ((astart demoApp demoView demo empty0).t.top + 1) 0).ch =
      [] := by decide
  have hp : (Ln.start demo).run demo ['a'] = some ⟨place (fun _ => Cell.blank false) 0 1 'a' false, 1, false, .normal⟩ := rfl
  have := hp.symm.trans hk
  simp only [Option.some.injEq, Ln.mk.injEq] at this
  have h0 := congrArg Cell.ch (congrFun this.1 0)
  rw [hr] at h0
  revert h0
  decide

/-- C186, what happens: the terminal has received every view drawn so far, one directly after the other, and nothing
else. -/
theorem C186_written_partial {a : App α σ} {view : σ → Str} {cap : Nat} {d : Dev Pen}
    {t0 : TT Pen} {f : FullAlt α σ Pen} (h : AReach a view cap d t0 f) :
    f.st.model = modelAfter a f.st.delivered ∧
    f.t = t0.feed d (view a.init ++ viewsFrom a view a.init f.st.delivered) :=
  ⟨(C20_fifo (areach_inv h).1).2.2.1, (areach_inv h).2⟩

/-- C186, as long as all views drawn so far together are one line that fits in the window (for example before the first
message, with a view of one line), the first row shows that line. -/
theorem C186_one_row_partial {a : App α σ} {view : σ → Str} {cap : Nat} {d : Dev Pen}
    {t0 : TT Pen} {f : FullAlt α σ Pen} (h : AReach a view cap d t0 f) (hW : 0 < d.W) (h0 : Ready d t0)
    (cells : Nat → Cell Pen) (k : Nat) (hk : k ≤ d.W)
    (hp : Paint d (view a.init ++ viewsFrom a view a.init f.st.delivered) cells k) :
    (∀ j, j < k → f.t.rows t0.row j = cells j) ∧ (∀ i, i ≠ t0.row → f.t.rows i = t0.rows i) ∧ f.t.top = t0.top := by
  have ht := (areach_inv h).2
  have hon : On d t0 t0 (Ln.start d) :=
    ⟨rfl, rfl, h0.ps, h0.pen, Or.inl ⟨hW, h0.col, h0.pend⟩, fun j hj => absurd hj (Nat.not_lt_zero _),
      fun hh => absurd hh (Nat.lt_irrefl _), fun j _ => rfl, fun i _ => rfl⟩
  have := on_run d hW _ hon hp hk
  rw [← ht] at this
  exact ⟨this.same, this.other, this.top⟩

example : ∃ cells, Paint demo (oneLine demoApp.init ++ viewsFrom demoApp oneLine demoApp.init [.user (some 1)]) cells 2 :=
  ⟨_, rfl⟩

/-! ## C187: after the program -/

/-- C187, full claim: when an inline program has ended, what is printed next leaves its last view alone: it does not
change the rows of the view. -/
def C187_statement : Prop :=
  ∀ (a : App (Option Nat) Nat) (view : Nat → Str) (cap : Nat) (d : Dev Bool) (t0 : TT Bool)
    (f : Full (Option Nat) Nat Bool) (c : Char), FReach a view (fun _ => none) cap d t0 f → 0 < d.W → Ready d t0 →
    f.st.loop = .done → isCtl c = false → d.tw c = 1 →
    (∀ m, (∀ l ∈ splitLines (view m), GoodLine d l) ∧ (splitLines (view m)).length = 1) →
    ∀ i, i < (splitLines (view f.st.model)).length →
      (f.scr.2.feed d [c]).rows (t0.row + i) = f.scr.2.rows (t0.row + i)

/-- C187, what happens: the program leaves the cursor at the start of the last line of its view, so the next printed
character replaces the first one of that line. -/
theorem C187_overwritten_partial {d : Dev Pen} {t0 t : TT Pen} {lines : List Str} (h : Displayed d t0 t lines)
    (c : Char) (hc : isCtl c = false) (hw : d.tw c = 1) (hW : 0 < d.W) :
    t.row = t0.row + (lines.length - 1) ∧ t.col = 0 ∧
    (t.feed d [c]).rows (t0.row + (lines.length - 1)) 0 = ⟨[c], d.p0, false⟩ ∧
    ∀ i, i ≠ t0.row + (lines.length - 1) → (t.feed d [c]).rows i = t.rows i := by
  have hn : c ≠ ESC ∧ c ≠ '\r' ∧ c ≠ '\n' := by
    refine ⟨?_, ?_, ?_⟩ <;> (intro e; subst e; revert hc; decide)
  have e : t.feed d [c] = t.putAt d 1 c := by
    show t.step d c = _
    unfold TT.step
    rw [h.pen.2.1]
    simp only
    rw [if_neg hn.1, if_neg hn.2.1, if_neg hn.2.2, if_neg (by simp [hc])]
    unfold TT.put
    rw [hw, if_neg (by omega), if_neg (by rw [h.pen.2.2, h.cursor.2]; simp; omega)]
  have hrow : (t.putAt d 1 c).rows = setRow t.rows t.row (place (t.rows t.row) t.col 1 c t.pen) := by
    unfold TT.putAt
    simp only
    split <;> rfl
  refine ⟨h.cursor.1, h.cursor.2, ?_, ?_⟩
  · rw [e, hrow, h.cursor.1, h.cursor.2, h.pen.1]
    unfold setRow
    rw [if_pos rfl]
    unfold place
    rw [if_pos rfl]
  · intro i hi
    rw [e, hrow, h.cursor.1]
    unfold setRow
    rw [if_neg hi]

/-- The state after Quit of the idle demo program. -/
theorem quit_reach : Reach demoApp 3 { start demoApp with loop := .done, quitCalls := 1 } :=
  .call _ _ .start (.quitLoop _ rfl rfl)

/-- C187 is false: the shell's prompt overwrites the last line. -/
theorem C187_refuted : ¬ C187_statement := by
  intro H
  obtain ⟨f, hf, e⟩ := freach_of_reach demoApp oneLine (fun _ => none) 3 demo empty0 quit_reach
  have hv : ∀ m, (∀ l ∈ splitLines (oneLine m), GoodLine demo l) ∧ (splitLines (oneLine m)).length = 1 := by
    intro m
    have ga : GoodLine demo ['a'] := ⟨_, 1, rfl, by decide⟩
    have gb : GoodLine demo ['b'] := ⟨_, 1, rfl, by decide⟩
    have hh : splitLines (oneLine m) = [['a']] ∨ splitLines (oneLine m) = [['b']] := by
      unfold oneLine
      split
      · left; decide
      · right; decide
    rcases hh with hh | hh <;> rw [hh] <;> refine ⟨fun l hl => ?_, by decide⟩
    · rw [List.mem_singleton.1 hl]; exact ga
    · rw [List.mem_singleton.1 hl]; exact gb
  have h1 := H demoApp oneLine 3 demo empty0 f '$' hf (by decide) empty_ready (by rw [e]) (by decide) (by decide) hv 0
    (by rw [(hv _).2]; decide)
  have hs := (freach_inv hf).2
  rw [e] at hs
  have h2 := congrArg Cell.ch (congrFun h1 0)
  rw [hs] at h2
  revert h2
  decide

end Phoenix.Screen
