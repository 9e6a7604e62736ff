import Verif.Tea.ResumeModel
/-
C192-C194: what the user sees around an external command (Suspend, Resume, ExecProcess) of an inline program.
-/
set_option linter.unusedVariables false
set_option linter.unusedSimpArgs false
namespace Phoenix.Resumed
open Phoenix.Program Phoenix.Inline Phoenix.Screen

variable {α σ Pen : Type}

/-- The row Resume draws from: as many rows above the cursor as the program had drawn lines, less one. -/
def baseRow (r : R) (t : TT Pen) : Nat := max t.top (t.row - (r.linesRendered - 1))

/-- Repaint and Render on a terminal left by others. -/
theorem resume_inv (rw : Char → Nat) (d : Dev Pen) (hW : 0 < d.W) (r : R) (t : TT Pen) (h : Left d t) (v : Str)
    (hv : v ≠ []) (hrow : ∀ l ∈ shown rw r.width (frame r.height v), ∃ row, RowOf d l row)
    (hlen : (frame r.height v).length ≤ d.H) :
    TInv rw d { t with row := baseRow r t } (baseRow r t) (trun rw d (r, t) [.repaint, .render v]).1
      (trun rw d (r, t) [.repaint, .render v]).2
      { width := r.width, height := r.height, prev := frame r.height v, stale := false,
        disp := shown rw r.width (frame r.height v) } := by
  have hskip : ¬ (v = r.repaint.lastView ∧ r.repaint.linesRendered > 0) := fun e => hv e.1
  have e1 : (trun rw d (r, t) [.repaint, .render v]).1 =
      { r with linesRendered := (frame r.height v).length, lastView := v, lastLines := frame r.height v } := by
    show (r.repaint.render rw v).1 = _
    unfold R.render
    rw [if_neg hskip]; rfl
  have e2 : (trun rw d (r, t) [.repaint, .render v]).2 = t.feed d (bytes (r.repaint.output rw v)) := by
    show t.feed d (bytes (r.repaint.render rw v).2) = _
    unfold R.render
    rw [if_neg hskip]
  have hne := frame_ne r.height v
  have hn := List.length_pos_iff.2 hne
  have hsl : (shown rw r.width (frame r.height v)).length = (frame r.height v).length := by
    unfold shown; rw [List.length_map]
  rw [e1, e2]
  have hout : t.feed d (bytes (r.repaint.output rw v)) =
      (((t.feed d (bytes ((if r.linesRendered > 1 then [Out.up (r.linesRendered - 1)] else []) ++ [Out.cr]))).feed d
        (bytes (r.repaint.emit rw (frame r.height v) []))).feed d
        (bytes (if r.linesRendered > (frame r.height v).length then [Out.ed] else []))).feed d (bytes [Out.cr]) := by
    show t.feed d (bytes (R.output rw r.repaint v)) = _
    unfold R.output
    simp only [bytes_append, tfeed_append]
    rfl
  rw [hout]
  generalize htop : t.feed d (bytes ((if r.linesRendered > 1 then [Out.up (r.linesRendered - 1)] else []) ++ [Out.cr])) = u
  have hcr : bytes [Out.cr] = Out.bytes .cr := by simp [bytes]
  have ht := h.top
  have hb := h.bottom
  have hbase : baseRow r t = max t.top (t.row - (r.linesRendered - 1)) := rfl
  have hu : u.row = baseRow r t ∧ u.col = 0 ∧ Clean d u ∧ u.top = t.top ∧ u.rows = t.rows := by
    rw [← htop]
    by_cases h1 : r.linesRendered > 1
    · rw [if_pos h1]
      have eb : bytes ([Out.up (r.linesRendered - 1)] ++ [Out.cr]) = Out.bytes (.up (r.linesRendered - 1)) ++ Out.bytes .cr := by
        simp [bytes]
      rw [eb, tfeed_append, up_step d t h.ps _ (by omega),
        cr_step d { t with row := max t.top (t.row - (r.linesRendered - 1)), pend := false } h.ps]
      exact ⟨rfl, rfl, ⟨rfl, h.pen, h.ps⟩, rfl, rfl⟩
    · rw [if_neg h1, List.nil_append, hcr, cr_step d _ h.ps]
      refine ⟨?_, rfl, ⟨rfl, h.pen, h.ps⟩, rfl, rfl⟩
      show t.row = _
      rw [hbase]
      omega
  obtain ⟨u1, u2, u3, u4, u5⟩ := hu
  generalize baseRow r t = b at *
  obtain ⟨x, x0, x1, x2, x3, x4, x5, x6, x7⟩ := temit rw d hW r.repaint (frame r.height v) [] u hne u2 u3
    (by rw [u1, u4]; omega) (by rw [u1, u4, List.length_nil]; omega) (by
    intro k l hk
    simp at hk) (by
    intro l hl
    apply hrow
    show r.cut rw l ∈ shown rw r.width (frame r.height v)
    exact List.mem_map_of_mem hl)
  rw [x0, u1] at *
  generalize hy : x.feed d (bytes (if r.linesRendered > (frame r.height v).length then [Out.ed] else [])) = y
  have hyy : y.row = x.row ∧ y.top = x.top ∧ y.pen = d.p0 ∧ y.ps = .normal ∧
      (∀ i, i < b + (frame r.height v).length → y.rows i = x.rows i) ∧
      (∀ i, b + (frame r.height v).length ≤ i → ∀ j, y.rows i j = Cell.blank d.p0) := by
    rw [← hy]
    by_cases hed : r.linesRendered > (frame r.height v).length
    · rw [if_pos hed]
      have eb : bytes [Out.ed] = Out.bytes .ed := by simp [bytes]
      rw [eb, ed_step d x x3]
      refine ⟨rfl, rfl, x2, x3, ?_, ?_⟩
      · intro i hi
        show (if i = x.row then _ else if x.row < i then _ else _) = _
        by_cases hix : i = x.row
        · rw [if_pos hix, x2, x7, hix]
          rw [List.getElem?_nil]
          intro e
          exact hne (List.getLast?_eq_none_iff.1 e.symm)
        · rw [if_neg hix, if_neg (by omega)]
      · intro i hi j
        show (if i = x.row then eraseFrom (x.rows x.row) x.col x.pen
          else if x.row < i then fun _ => Cell.blank x.pen else x.rows i) j = _
        rw [if_neg (by omega), if_pos (by omega), x2]
    · rw [if_neg hed]
      refine ⟨rfl, rfl, x2, x3, fun _ _ => rfl, ?_⟩
      intro i hi j
      show x.rows i j = _
      rw [x6 i (Or.inr hi), u5]
      exact h.blank i (by omega) j
  obtain ⟨y1, y2, y3, y4, y5, y6⟩ := hyy
  rw [hcr, cr_step d y y4]
  have htx : x.top = max t.top (b + (frame r.height v).length - d.H) := by rw [x4, u4]
  refine ⟨rfl, rfl, hsl.symm, hsl.symm, fun _ => ⟨rfl, rfl, rfl⟩, fun hh => (by cases hh), rfl,
    ⟨rfl, y3, y4⟩, ?_, ?_, ?_, ?_, ?_, ?_, ?_, ?_⟩
  · show y.row = b + ((shown rw r.width (frame r.height v)).length - 1)
    rw [hsl, y1]; omega
  · show t.top ≤ y.top; rw [y2, htx]; omega
  · show y.top ≤ b; rw [y2, htx]; omega
  · show b < y.top + d.H; rw [y2, htx]; omega
  · show b + (shown rw r.width (frame r.height v)).length ≤ y.top + d.H; rw [hsl, y2, htx]; omega
  · intro i hi
    have hi' : i < b := hi
    show y.rows i = _
    rw [y5 i (by omega), x6 i (Or.inl hi'), u5]
  · intro i l hl
    show RowOf d l (y.rows (b + i))
    have hl' : (shown rw r.width (frame r.height v))[i]? = some l := hl
    rw [shown_get] at hl'
    obtain ⟨l0, h0, h1⟩ := Option.map_eq_some_iff.1 hl'
    have hi := (List.getElem?_eq_some_iff.1 h0).1
    rw [y5 _ (by omega), ← h1]
    exact x5 i l0 h0
  · intro i hi j
    show y.rows i j = _
    apply y6
    have : b + (shown rw r.width (frame r.height v)).length ≤ i := hi
    rw [hsl] at this
    exact this

/-- What the invariant means for the user. -/
theorem displayed_of_inv {d : Dev Pen} {t0 t : TT Pen} {r : R} {sp : Spec} (inv : TInv d.tw d t0 t0.row r t sp)
    (g1 : sp.disp = sp.prev) (g2 : ∀ l ∈ sp.prev, GoodLine d l) : Displayed d t0 t sp.prev := by
  refine ⟨?_, inv.above, ?_, ⟨inv.top, ?_⟩, ⟨?_, inv.col⟩, inv.clean.pen, inv.clean.ps, inv.clean.pend⟩
  · intro i l hl
    obtain ⟨cells, k, hp, hk, hrow⟩ := inv.cells i l (by rw [g1]; exact hl)
    obtain ⟨cells', k', hp', hk'⟩ := g2 l (List.mem_of_getElem? hl)
    have heq : k = k' := by
      have a := paint_width d hp
      have b := paint_width d hp'
      omega
    rw [if_pos (by omega)] at hrow
    exact ⟨k, by rw [hrow]; exact hp⟩
  · have := inv.below; rw [g1] at this; exact this
  · have := inv.onscreen; rw [g1] at this; exact this
  · have := inv.row; rw [g1] at this; exact this

theorem rows_of_good {d : Dev Pen} {ls : List Str} (h : ∀ l ∈ ls, GoodLine d l) : ∀ l ∈ ls, ∃ row, RowOf d l row := by
  intro l hl
  obtain ⟨cells, k, hp, hk⟩ := h l hl
  exact ⟨_, cells, k, hp, Nat.le_of_lt hk, rfl⟩

/-! ### What the renderer remembers -/

theorem render_size (rw : Char → Nat) (r : R) (v : Str) :
    (r.render rw v).1.width = r.width ∧ (r.render rw v).1.height = r.height := by
  unfold R.render; split <;> exact ⟨rfl, rfl⟩

theorem render_lines (rw : Char → Nat) (r : R) (v : Str) (hv : v ≠ []) (n : Nat)
    (hn : (frame r.height v).length = n) (h : r.lastView = [] ∨ r.linesRendered = n) :
    (r.render rw v).1.linesRendered = n := by
  unfold R.render
  split
  · rename_i hh
    rcases h with h | h
    · exact absurd (hh.1.trans h) hv
    · exact h
  · exact hn

theorem frame_trun (a : App α σ) (view : σ → Str) (size : α → Option (Int × Int)) (d : Dev Pen) (m : σ) (x : Msg α)
    (s : R × TT Pen) :
    (trun d.tw d s (frameOps a view size m x)).1.width = ((sizeOf size x).map (·.1)).getD s.1.width ∧
    (trun d.tw d s (frameOps a view size m x)).1.height = ((sizeOf size x).map (·.2)).getD s.1.height := by
  unfold frameOps
  rw [sizeOps_eq]
  cases sizeOf size x with
  | none => exact render_size d.tw s.1 _
  | some p => exact render_size d.tw (s.1.resize p.1 p.2) _

theorem heightAfter_snoc (size : α → Option (Int × Int)) (xs : List (Msg α)) (x : Msg α) :
    heightAfter size (xs ++ [x]) = ((sizeOf size x).map (·.2)).getD (heightAfter size xs) := by
  unfold heightAfter
  rw [List.filterMap_append]
  cases hx : sizeOf size x with
  | none => simp [hx]
  | some p => simp [hx]

/-- Suspending and resuming is invisible to the event loop, and the renderer knows the size told last. -/
theorem sreach_inv {a : App α σ} {view : σ → Str} {size : α → Option (Int × Int)} {cap : Nat} {d : Dev Pen}
    {t0 : TT Pen} {s : SF α σ Pen} (h : SReach a view size cap d t0 s)
    (hsize : ∀ x w h, size x = some (w, h) → w ≤ 0 ∨ (d.W : Int) ≤ w) :
    Reach a cap s.f.st ∧ s.f.scr.1.height = heightAfter size s.f.st.delivered ∧
      (s.f.scr.1.width ≤ 0 ∨ (d.W : Int) ≤ s.f.scr.1.width) := by
  induction h with
  | start =>
    refine ⟨.start, ?_, Or.inl ?_⟩
    · exact (render_size d.tw {} _).2
    · exact Int.le_of_eq (render_size d.tw {} _).1
  | step s s' _ st ih =>
    obtain ⟨hr, hh, hw⟩ := ih
    cases st with
    | run f' st =>
      cases st with
      | quiet s' hst hd => exact ⟨.step _ _ hr hst, by show _ = heightAfter size s'.delivered; rw [hd]; exact hh, hw⟩
      | update m hl =>
        obtain ⟨f1, f2⟩ := frame_trun a view size d s.f.st.model m s.f.scr
        refine ⟨.step _ _ hr (.update _ _ hl), ?_, ?_⟩
        · show _ = heightAfter size (s.f.st.delivered ++ [m])
          rw [heightAfter_snoc, ← hh]; exact f2
        · show (trun d.tw d s.f.scr (frameOps a view size s.f.st.model m)).1.width ≤ 0 ∨ _ ≤ (trun _ _ _ _).1.width
          rw [f1]
          cases m with
          | user y =>
            have e : Screen.sizeOf size (Msg.user y) = size y := rfl
            rw [e]
            cases hy : size y with
            | none => exact hw
            | some p => exact hsize y p.1 p.2 hy
          | quit => exact hw
          | batch => exact hw
          | seq => exact hw
      | call s' hc =>
        have : s'.delivered = s.f.st.delivered := by cases hc <;> rfl
        exact ⟨.call _ _ hr hc, by show _ = heightAfter size s'.delivered; rw [this]; exact hh, hw⟩
    | suspend hs => exact ⟨hr, hh, hw⟩
    | resume t' hs hl =>
      obtain ⟨r1, r2⟩ := render_size d.tw s.f.scr.1.repaint (view s.f.st.model)
      exact ⟨hr, r2.trans hh, by
        show (s.f.scr.1.repaint.render d.tw (view s.f.st.model)).1.width ≤ 0 ∨ _ ≤ (s.f.scr.1.repaint.render d.tw _).1.width
        rw [r1]; exact hw⟩

/-! ## C192: after Resume the screen shows the current view -/

/-- C192.  In every execution, when Resume is called, wherever the external command left the cursor and whatever it
left on the screen (nothing below the cursor, C192's `Left`): afterwards the terminal shows exactly the view of the
current model, its first line `n - 1` rows above the row the cursor was in (`n` the lines of the frame before Suspend;
not above the top of the screen), everything above as it was left. -/
theorem C192_resume {a : App α σ} {view : σ → Str} {size : α → Option (Int × Int)} {cap : Nat} {d : Dev Pen}
    {t0 t' : TT Pen} {s : SF α σ Pen} (h : SReach a view size cap d t0 s) (hW : 0 < d.W)
    (hview : ∀ ys, view (modelAfter a ys) ≠ [] ∧ (∀ l ∈ splitLines (view (modelAfter a ys)), GoodLine d l) ∧
      (splitLines (view (modelAfter a ys))).length ≤ d.H)
    (hsize : ∀ x w h, size x = some (w, h) → w ≤ 0 ∨ (d.W : Int) ≤ w) (hl : Left d t') :
    s.f.st.model = modelAfter a s.f.st.delivered ∧
    Displayed d { t' with row := baseRow s.f.scr.1 t' }
      (trun d.tw d (s.f.scr.1, t') [.repaint, .render (view s.f.st.model)]).2
      (frame (heightAfter size s.f.st.delivered) (view s.f.st.model)) := by
  obtain ⟨hr, hh, hw⟩ := sreach_inv h hsize
  have hm : s.f.st.model = modelAfter a s.f.st.delivered := (C20_fifo hr).2.2.1
  obtain ⟨v1, v2, v3⟩ := hview s.f.st.delivered
  rw [← hm] at v1 v2 v3
  refine ⟨hm, ?_⟩
  have hg : ∀ l ∈ frame s.f.scr.1.height (view s.f.st.model), GoodLine d l := fun l hl => v2 l (frame_mem hl)
  have hsh := shown_good d hw _ hg
  have inv := resume_inv d.tw d hW s.f.scr.1 t' hl (view s.f.st.model) v1
    (by rw [hsh]; exact rows_of_good hg) (Nat.le_trans (frame_le _ _) v3)
  rw [hsh] at inv
  rw [← hh]
  exact displayed_of_inv inv rfl hg

/-- A frame of `n` lines, and the renderer in step with it. -/
structure Steady (view : σ → Str) (d : Dev Pen) (n : Nat) (s : SF α σ Pen) : Prop where
  lines : s.f.scr.1.linesRendered = n
  height : s.f.scr.1.height ≤ 0 ∨ (n : Int) ≤ s.f.scr.1.height
  width : s.f.scr.1.width ≤ 0 ∨ (d.W : Int) ≤ s.f.scr.1.width
  shown : s.susp = false → ∃ t0 sp, TInv d.tw d t0 t0.row s.f.scr.1 s.f.scr.2 sp ∧
    sp.prev = splitLines (view s.f.st.model) ∧ sp.disp = sp.prev ∧ sp.stale = false ∧
    sp.width = s.f.scr.1.width ∧ sp.height = s.f.scr.1.height

theorem frame_eq {h : Int} {v : Str} {n : Nat} (hn : (splitLines v).length = n) (hh : h ≤ 0 ∨ (n : Int) ≤ h) :
    frame h v = splitLines v := by
  unfold frame
  simp only
  rw [if_neg (by rw [hn]; omega)]

/-- One frame after another, both of `n` lines. -/
theorem steady_render {d : Dev Pen} (hW : 0 < d.W) {n : Nat} (hn : n ≤ d.H) {t0 t : TT Pen} {r : R} {sp : Spec}
    (inv : TInv d.tw d t0 t0.row r t sp) (hp : sp.prev.length = n)
    (hh : sp.height ≤ 0 ∨ (n : Int) ≤ sp.height) (hw : sp.width ≤ 0 ∨ (d.W : Int) ≤ sp.width) (v : Str) (hv : v ≠ [])
    (hvn : (splitLines v).length = n) (hg : ∀ l ∈ splitLines v, GoodLine d l) :
    ∃ sp', TInv d.tw d t0 t0.row (tstep d.tw d (r, t) (.render v)).1 (tstep d.tw d (r, t) (.render v)).2 sp' ∧
      sp'.prev = splitLines v ∧ sp'.disp = sp'.prev ∧ sp'.stale = false ∧ sp'.width = sp.width ∧ sp'.height = sp.height := by
  have hfr := frame_eq hvn hh
  have hsh := shown_good d hw _ hg
  refine ⟨_, tstep_inv d.tw d hW (Nat.le_refl _) inv (.render v) ⟨⟨?_, fun _ _ => hv⟩, trivial⟩ ?_, hfr, ?_, rfl, rfl, rfl⟩
  · intro hlt
    rw [hfr, hvn, hp] at hlt
    exact absurd hlt (Nat.lt_irrefl _)
  · show FitsOne d _ _ (shown d.tw sp.width (frame sp.height v))
    rw [hfr, hsh]
    exact ⟨rows_of_good hg, by rw [hvn]; omega⟩
  · show shown d.tw sp.width (frame sp.height v) = frame sp.height v
    rw [hfr, hsh]

theorem steady {a : App α σ} {view : σ → Str} {size : α → Option (Int × Int)} {cap : Nat} {d : Dev Pen}
    {t0 : TT Pen} {s : SF α σ Pen} (h : SReach a view size cap d t0 s) (hW : 0 < d.W) (h0 : Ready d t0) (n : Nat)
    (hn : n ≤ d.H)
    (hview : ∀ ys, view (modelAfter a ys) ≠ [] ∧ (splitLines (view (modelAfter a ys))).length = n ∧
      ∀ l ∈ splitLines (view (modelAfter a ys)), GoodLine d l)
    (hsize : ∀ x w h, size x = some (w, h) → (w ≤ 0 ∨ (d.W : Int) ≤ w) ∧ (h ≤ 0 ∨ (n : Int) ≤ h)) :
    Steady view d n s := by
  have hz : ∀ x w h, size x = some (w, h) → w ≤ 0 ∨ (d.W : Int) ≤ w := fun x w h e => (hsize x w h e).1
  induction h with
  | start =>
    obtain ⟨v1, v2, v3⟩ := hview []
    have inv := tinit_inv d.tw d h0 h0.top 0 0
    have hfr : frame 0 (view a.init) = splitLines (view a.init) := frame_eq v2 (Or.inl (Int.le_refl _))
    have hsh : shown d.tw 0 (splitLines (view a.init)) = splitLines (view a.init) :=
      shown_good d (w := 0) (Or.inl (Int.le_refl _)) _ v3
    refine ⟨render_lines d.tw {} (view a.init) v1 n (by rw [hfr]; exact v2) (Or.inl rfl), Or.inl ?_, Or.inl ?_, fun _ => ?_⟩
    · exact Int.le_of_eq (render_size d.tw {} _).2
    · exact Int.le_of_eq (render_size d.tw {} _).1
    · refine ⟨t0, _, tstep_inv d.tw d hW (Nat.le_refl _) inv (.render (view a.init)) ⟨⟨?_, ?_⟩, trivial⟩ ?_, hfr, ?_, rfl,
        (render_size d.tw {} _).1.symm, (render_size d.tw {} _).2.symm⟩
      · intro hlt; exact absurd hlt (Nat.not_lt_zero _)
      · intro _ hne; exact absurd rfl hne
      · show FitsOne d _ _ (shown d.tw 0 (frame 0 (view a.init)))
        rw [hfr, hsh]
        exact ⟨rows_of_good v3, by rw [show (splitLines (view a.init)).length = n from v2]; omega⟩
      · show shown d.tw 0 (frame 0 (view a.init)) = frame 0 (view a.init)
        rw [hfr, hsh]
  | step s s' hs st ih =>
    have hr := (sreach_inv hs hz).1
    have hm : s.f.st.model = modelAfter a s.f.st.delivered := (C20_fifo hr).2.2.1
    cases st with
    | run f' st =>
      cases st with
      | quiet s' hst hd =>
        refine ⟨ih.lines, ih.height, ih.width, ?_⟩
        have hr' : Reach a cap s' := .step _ _ hr hst
        have hm' : s'.model = modelAfter a s'.delivered := (C20_fifo hr').2.2.1
        have : s'.model = s.f.st.model := by rw [hm', hd, hm]
        show s.susp = false → ∃ (t0 : TT Pen) (sp : Spec), _ ∧ sp.prev = splitLines (view s'.model) ∧ _
        rw [this]
        exact ih.shown
      | call s' hc =>
        refine ⟨ih.lines, ih.height, ih.width, ?_⟩
        have : s'.model = s.f.st.model := by cases hc <;> rfl
        show s.susp = false → ∃ (t0 : TT Pen) (sp : Spec), _ ∧ sp.prev = splitLines (view s'.model) ∧ _
        rw [this]
        exact ih.shown
      | update m hl =>
        have hup : (a.update s.f.st.model m).1 = modelAfter a (s.f.st.delivered ++ [m]) := by
          unfold modelAfter
          rw [List.foldl_append, hm]; rfl
        obtain ⟨v1, v2, v3⟩ := hview (s.f.st.delivered ++ [m])
        rw [← hup] at v1 v2 v3
        show Steady view d n ⟨⟨finish a s.f.st m, trun d.tw d s.f.scr (frameOps a view size s.f.st.model m)⟩, s.susp⟩
        have hmod : (finish a s.f.st m).model = (a.update s.f.st.model m).1 := rfl
        unfold frameOps
        rw [sizeOps_eq]
        cases hx : sizeOf size m with
        | none =>
          obtain ⟨r1, r2⟩ := render_size d.tw s.f.scr.1 (view (a.update s.f.st.model m).1)
          refine ⟨?_, ?_, ?_, fun hsu => ?_⟩
          · exact render_lines d.tw _ _ v1 n (by rw [frame_eq v2 ih.height]; exact v2) (Or.inr ih.lines)
          · show (R.render _ _ _).1.height ≤ 0 ∨ _ ≤ (R.render _ _ _).1.height
            rw [r2]; exact ih.height
          · show (R.render _ _ _).1.width ≤ 0 ∨ _ ≤ (R.render _ _ _).1.width
            rw [r1]; exact ih.width
          · obtain ⟨t1, sp, i1, i2, i3, i4, i5, i6⟩ := ih.shown hsu
            have hp : sp.prev.length = n := by
              rw [i2, hm]; exact (hview _).2.1
            obtain ⟨sp', j1, j2, j3, j4, j5, j6⟩ := steady_render hW hn i1 hp (by rw [i6]; exact ih.height)
              (by rw [i5]; exact ih.width) _ v1 v2 v3
            exact ⟨t1, sp', j1, by rw [hmod]; exact j2, j3, j4, (j5.trans i5).trans r1.symm, (j6.trans i6).trans r2.symm⟩
        | some p =>
          have hp : (p.1 ≤ 0 ∨ (d.W : Int) ≤ p.1) ∧ (p.2 ≤ 0 ∨ (n : Int) ≤ p.2) := by
            cases m with
            | user y => exact hsize y p.1 p.2 hx
            | quit => cases hx
            | batch => cases hx
            | seq => cases hx
          obtain ⟨r1, r2⟩ := render_size d.tw (s.f.scr.1.resize p.1 p.2) (view (a.update s.f.st.model m).1)
          refine ⟨?_, ?_, ?_, fun hsu => ?_⟩
          · exact render_lines d.tw (s.f.scr.1.resize p.1 p.2) _ v1 n (by
              show (frame p.2 _).length = n
              rw [frame_eq v2 hp.2]; exact v2) (Or.inl rfl)
          · show (R.render _ (s.f.scr.1.resize p.1 p.2) _).1.height ≤ 0 ∨ _ ≤ (R.render _ (s.f.scr.1.resize p.1 p.2) _).1.height
            rw [r2]; exact hp.2
          · show (R.render _ (s.f.scr.1.resize p.1 p.2) _).1.width ≤ 0 ∨ _ ≤ (R.render _ (s.f.scr.1.resize p.1 p.2) _).1.width
            rw [r1]; exact hp.1
          · obtain ⟨t1, sp, i1, i2, i3, i4, i5, i6⟩ := ih.shown hsu
            have hpl : sp.prev.length = n := by
              rw [i2, hm]; exact (hview _).2.1
            have i1' := tstep_inv d.tw d hW (Nat.le_refl _) i1 (.resize p.1 p.2) ⟨trivial, trivial⟩ (by
              show FitsOne d _ _ sp.disp
              rw [i3]
              exact ⟨rows_of_good (by rw [i2, hm]; exact (hview _).2.2), by rw [hpl]; omega⟩)
            obtain ⟨sp', j1, j2, j3, j4, j5, j6⟩ := steady_render hW hn i1' hpl hp.2 hp.1 _ v1 v2 v3
            exact ⟨t1, sp', j1, by rw [hmod]; exact j2, j3, j4, j5.trans r1.symm, j6.trans r2.symm⟩
    | suspend hs => exact ⟨ih.lines, ih.height, ih.width, fun h => (by cases h)⟩
    | resume t' hs hl =>
      obtain ⟨v1, v2, v3⟩ := hview s.f.st.delivered
      rw [← hm] at v1 v2 v3
      obtain ⟨r1, r2⟩ := render_size d.tw s.f.scr.1.repaint (view s.f.st.model)
      have hfr := frame_eq v2 ih.height
      have hsh := shown_good d ih.width _ v3
      have inv := resume_inv d.tw d hW s.f.scr.1 t' hl (view s.f.st.model) v1
        (by rw [hfr, hsh]; exact rows_of_good v3) (by rw [hfr, v2]; exact hn)
      refine ⟨?_, ?_, ?_, fun _ => ?_⟩
      · exact render_lines d.tw s.f.scr.1.repaint _ v1 n (by
          show (frame s.f.scr.1.height _).length = n
          rw [hfr]; exact v2) (Or.inl rfl)
      · show (R.render _ s.f.scr.1.repaint _).1.height ≤ 0 ∨ _ ≤ (R.render _ s.f.scr.1.repaint _).1.height
        rw [r2]; exact ih.height
      · show (R.render _ s.f.scr.1.repaint _).1.width ≤ 0 ∨ _ ≤ (R.render _ s.f.scr.1.repaint _).1.width
        rw [r1]; exact ih.width
      · exact ⟨{ t' with row := baseRow s.f.scr.1 t' }, _, inv, hfr, by
          show shown d.tw s.f.scr.1.width (frame s.f.scr.1.height (view s.f.st.model)) = frame s.f.scr.1.height _
          rw [hfr, hsh], rfl, r1.symm, r2.symm⟩

/-- C192.  A program with views of a fixed number of lines, suspended and resumed any number of times, at any moments,
the terminal changed by others in between: in every execution, at every moment outside a suspension, the terminal shows
exactly the view of the current model, and nothing below it. -/
theorem C192_always {a : App α σ} {view : σ → Str} {size : α → Option (Int × Int)} {cap : Nat} {d : Dev Pen}
    {t0 : TT Pen} {s : SF α σ Pen} (h : SReach a view size cap d t0 s) (hW : 0 < d.W) (h0 : Ready d t0) (n : Nat)
    (hn : n ≤ d.H)
    (hview : ∀ ys, view (modelAfter a ys) ≠ [] ∧ (splitLines (view (modelAfter a ys))).length = n ∧
      ∀ l ∈ splitLines (view (modelAfter a ys)), GoodLine d l)
    (hsize : ∀ x w h, size x = some (w, h) → (w ≤ 0 ∨ (d.W : Int) ≤ w) ∧ (h ≤ 0 ∨ (n : Int) ≤ h))
    (hs : s.susp = false) :
    s.f.st.model = modelAfter a s.f.st.delivered ∧
    ∃ t1, Displayed d t1 s.f.scr.2 (splitLines (view s.f.st.model)) := by
  have hr := (sreach_inv h (fun x w h e => (hsize x w h e).1)).1
  have hm : s.f.st.model = modelAfter a s.f.st.delivered := (C20_fifo hr).2.2.1
  obtain ⟨t1, sp, i1, i2, i3, _⟩ := (steady h hW h0 n hn hview hsize).shown hs
  refine ⟨hm, t1, ?_⟩
  rw [← i2]
  exact displayed_of_inv i1 i3 (by rw [i2, hm]; exact (hview _).2.2)

/-! ## C193: the output of the external command stays on the screen -/

/-- C193, full claim: Resume changes no row above the one the cursor was left in. -/
def C193_statement : Prop :=
  ∀ (a : App (Option Nat) Nat) (view : Nat → Str) (cap : Nat) (d : Dev Bool) (t0 t' : TT Bool)
    (s : SF (Option Nat) Nat Bool), SReach a view (fun _ => none) cap d t0 s → 0 < d.W → Ready d t0 →
    (∀ m, view m ≠ [] ∧ (∀ l ∈ splitLines (view m), GoodLine d l) ∧ (splitLines (view m)).length ≤ d.H) →
    s.susp = true → Left d t' →
    ∀ i, i < t'.row → (trun d.tw d (s.f.scr.1, t') [.repaint, .render (view s.f.st.model)]).2.rows i = t'.rows i

/-- C193, what happens: a view of `n` lines overwrites the `n - 1` rows above the cursor (and the cursor's own); all
rows above these are kept.  With a view of one line the whole output of the command is kept. -/
theorem C193_kept_partial {a : App α σ} {view : σ → Str} {size : α → Option (Int × Int)} {cap : Nat} {d : Dev Pen}
    {t0 t' : TT Pen} {s : SF α σ Pen} (h : SReach a view size cap d t0 s) (hW : 0 < d.W) (h0 : Ready d t0) (n : Nat)
    (hn : n ≤ d.H)
    (hview : ∀ ys, view (modelAfter a ys) ≠ [] ∧ (splitLines (view (modelAfter a ys))).length = n ∧
      ∀ l ∈ splitLines (view (modelAfter a ys)), GoodLine d l)
    (hsize : ∀ x w h, size x = some (w, h) → (w ≤ 0 ∨ (d.W : Int) ≤ w) ∧ (h ≤ 0 ∨ (n : Int) ≤ h)) (hl : Left d t') :
    let t := (trun d.tw d (s.f.scr.1, t') [.repaint, .render (view s.f.st.model)]).2
    (∀ i, i + (n - 1) < t'.row → t.rows i = t'.rows i) ∧
    (t'.top + (n - 1) ≤ t'.row → ∀ k l, (splitLines (view s.f.st.model))[k]? = some l →
      ∃ w, Paint d l (t.rows (t'.row - (n - 1) + k)) w) := by
  have st := steady h hW h0 n hn hview hsize
  obtain ⟨hr, hh, hw⟩ := sreach_inv h (fun x w h e => (hsize x w h e).1)
  have hm : s.f.st.model = modelAfter a s.f.st.delivered := (C20_fifo hr).2.2.1
  have hd := (C192_resume h hW (fun ys => ⟨(hview ys).1, (hview ys).2.2, by rw [(hview ys).2.1]; exact hn⟩)
    (fun x w h e => (hsize x w h e).1) hl).2
  have hb : baseRow s.f.scr.1 t' = max t'.top (t'.row - (n - 1)) := by unfold baseRow; rw [st.lines]
  have hfr : frame (heightAfter size s.f.st.delivered) (view s.f.st.model) = splitLines (view s.f.st.model) := by
    rw [← hh]
    exact frame_eq (by rw [hm]; exact (hview _).2.1) st.height
  rw [hfr] at hd
  refine ⟨fun i hi => hd.above i ?_, fun ht k l hk => ?_⟩
  · show i < baseRow s.f.scr.1 t'
    rw [hb]; omega
  · obtain ⟨w, hw⟩ := hd.shown k l hk
    refine ⟨w, ?_⟩
    have e : baseRow s.f.scr.1 t' = t'.row - (n - 1) := by rw [hb]; omega
    have hw' : Paint d l ((trun d.tw d (s.f.scr.1, t') [.repaint, .render (view s.f.st.model)]).2.rows
      (baseRow s.f.scr.1 t' + k)) w := hw
    rw [e] at hw'
    exact hw'

/-- The demo program, suspended right after its start. -/
theorem demo_suspended : SReach demoApp demoView (fun _ => none) 3 demo demo0 ⟨fstart demoApp demoView demo demo0, true⟩ :=
  .step _ _ .start (.suspend _ rfl)

theorem demo_left : Left demo demo0 := ⟨rfl, rfl, by decide, by decide, fun i hi j => by
  show (if i < 2 then _ else _) = _
  rw [if_neg (by have : (2 : Nat) < i := hi; omega)]; rfl⟩

/-- C193 is false: a view of two lines overwrites the last line of the command's output. -/
theorem C193_refuted : ¬ C193_statement := by
  intro H
  have := H demoApp demoView 3 demo demo0 demo0 ⟨fstart demoApp demoView demo demo0, true⟩ demo_suspended (by decide)
    demo_ready (fun m => ⟨(demo_views m).1, (demo_views m).2.2, by rw [(demo_views m).2.1]; decide⟩) rfl demo_left 1
    (by decide)
  have := congrArg Cell.ch (congrFun this 0)
  revert this
  decide +kernel

/-- C192, C193: the hypotheses, and what is seen: the view on the rows 1 and 2, the row above kept. -/
example : ∃ s, SReach demoApp demoView (fun _ => none) 3 demo demo0 s ∧ s.susp = false ∧
    Displayed demo { demo0 with row := 1 } s.f.scr.2 [['n', '='], ['a']] ∧ s.f.scr.2.rows 0 = demo0.rows 0 := by
  have r := SReach.step _ _ demo_suspended (.resume _ demo0 rfl demo_left)
  refine ⟨_, r, rfl, ?_, ?_⟩
  · have := (C192_resume demo_suspended (by decide)
      (fun ys => ⟨(demo_views _).1, (demo_views _).2.2, by rw [(demo_views _).2.1]; decide⟩)
      (fun x w h e => (by cases e)) demo_left).2
    exact this
  · exact (C193_kept_partial demo_suspended (by decide) demo_ready 2 (by decide) (fun ys => demo_views _)
      (fun x w h e => (by cases e)) demo_left).1 0 (by decide)

/-! ## C194: a suspended program leaves the terminal alone -/

/-- C194, full claim: while the program is suspended nothing it does changes the terminal. -/
def C194_statement : Prop :=
  ∀ (a : App (Option Nat) Nat) (view : Nat → Str) (cap : Nat) (d : Dev Bool) (t0 : TT Bool)
    (s : SF (Option Nat) Nat Bool) (f' : Full (Option Nat) Nat Bool), SReach a view (fun _ => none) cap d t0 s →
    s.susp = true → FStep a view (fun _ => none) cap d s.f f' → f'.scr.2 = s.f.scr.2

/-- C194 is false: a message sent while an external command runs is handled and drawn over the command's screen. -/
theorem C194_refuted : ¬ C194_statement := by
  intro H
  have r1 := SReach.step _ _ demo_suspended (.run _ _ (.call _ _ (.send _ (.user (some 1)) (by decide))))
  have r2 := SReach.step _ _ r1 (.run _ _ (.quiet _ _ (.recv _ _ _ rfl rfl) rfl))
  have := H demoApp demoView 3 demo demo0 _ _ r2 rfl (.update _ _ rfl)
  have := congrArg Cell.ch (congrFun (congrFun (congrArg TT.rows this) 3) 0)
  revert this
  decide +kernel

/-- C194, what holds: only calls of Update draw.  A step in which no message is handed to Update leaves the terminal and
the renderer alone, and so does Suspend. -/
theorem C194_idle_partial {a : App α σ} {view : σ → Str} {size : α → Option (Int × Int)} {cap : Nat} {d : Dev Pen}
    {s s' : SF α σ Pen} (st : SStep a view size cap d s s') (hs : s.susp = true → s'.susp = true)
    (hd : s'.f.st.delivered = s.f.st.delivered) : s'.f.scr = s.f.scr := by
  cases st with
  | run f' st =>
    cases st with
    | quiet => rfl
    | call => rfl
    | update m hl =>
      have : s.f.st.delivered ++ [m] = s.f.st.delivered := hd
      have := congrArg List.length this
      simp at this
  | suspend => rfl
  | resume t' h1 h2 => exact absurd (hs h1) (by simp)

end Phoenix.Resumed
