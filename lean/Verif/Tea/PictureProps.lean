import Verif.Tea.EditorProps
import Verif.TextArea.ViewProps
/-
Lemmas for C198, C199: the cells a line of text with a highlighted character gives on a terminal, and the screen of a
program whose views are good along one history.
-/
set_option linter.unusedVariables false
set_option linter.unusedSimpArgs false
namespace Phoenix.Picture
open Phoenix.Program Phoenix.Inline

variable {α σ Pen : Type}

/-- Specification: what a row of marked characters looks like, `pc` the pen of the marked ones. -/
def pic (p0 pc : Pen) (row : List (Char × Bool)) (j : Nat) : Cell Pen :=
  ((row[j]?).map fun c => (⟨[c.1], if c.2 then pc else p0, false⟩ : Cell Pen)).getD (Cell.blank p0)

theorem pic_cont (p0 pc : Pen) (row : List (Char × Bool)) (j : Nat) : (pic p0 pc row j).cont = false := by
  unfold pic; cases row[j]? <;> rfl

/-- SGR sequences with the given parameters. -/
def sgrs (ps : List Str) : Str := ps.flatMap fun p => ESC :: '[' :: (p ++ ['m'])

/-- The pen after SGR sequences. -/
def pens (d : Dev Pen) (p : Pen) (ps : List Str) : Pen := ps.foldl d.sgr p

/-- An ordinary character for the terminal: printable, one column wide. -/
def Narrow (d : Dev Pen) (c : Char) : Prop := c ≠ ESC ∧ isCtl c = false ∧ d.tw c = 1

theorem run_append (d : Dev Pen) (a b : Str) : ∀ l : Ln Pen, l.run d (a ++ b) = (l.run d a).bind fun l' => l'.run d b := by
  induction a with
  | nil => intro l; rfl
  | cons c cs ih =>
    intro l
    simp only [List.cons_append, Ln.run]
    cases l.step d c with
    | none => rfl
    | some m => simpa using ih m

theorem run_params (d : Dev Pen) (cells : Nat → Cell Pen) (col : Nat) (pen : Pen) (p : Str)
    (h : ∀ c ∈ p, isFinal c = false) : ∀ acc,
    Ln.run d ⟨cells, col, pen, .csi acc⟩ (p ++ ['m']) = some ⟨cells, col, d.sgr pen (acc ++ p), .normal⟩ := by
  induction p with
  | nil =>
    intro acc
    have h1 : isFinal 'm' = true := by decide
    simp [Ln.run, Ln.step, h1]
  | cons c cs ih =>
    intro acc
    have hc := h c (by simp)
    have := ih (fun x hx => h x (by simp [hx])) (acc ++ [c])
    simp only [List.cons_append, Ln.run, Ln.step, hc, Bool.false_eq_true, if_false, Option.bind_some]
    rw [this, List.append_assoc]; rfl

theorem run_sgr (d : Dev Pen) (cells : Nat → Cell Pen) (col : Nat) (pen : Pen) (p : Str)
    (h : ∀ c ∈ p, isFinal c = false) :
    Ln.run d ⟨cells, col, pen, .normal⟩ (ESC :: '[' :: (p ++ ['m'])) = some ⟨cells, col, d.sgr pen p, .normal⟩ := by
  have := run_params d cells col pen p h []
  simp only [Ln.run, Ln.step, if_true, Option.bind_some]
  rw [this]; rfl

theorem run_sgrs (d : Dev Pen) (cells : Nat → Cell Pen) (col : Nat) (ps : List Str)
    (h : ∀ p ∈ ps, ∀ c ∈ p, isFinal c = false) : ∀ pen,
    Ln.run d ⟨cells, col, pen, .normal⟩ (sgrs ps) = some ⟨cells, col, pens d pen ps, .normal⟩ := by
  induction ps with
  | nil => intro pen; rfl
  | cons p ps ih =>
    intro pen
    show Ln.run d _ ((ESC :: '[' :: (p ++ ['m'])) ++ sgrs ps) = _
    rw [run_append, run_sgr d _ _ _ _ (h p (by simp)), Option.bind_some, ih (fun q hq => h q (by simp [hq]))]
    rfl

theorem run_text (d : Dev Pen) (pc : Pen) (b : Bool) (s : Str) (h : ∀ c ∈ s, Narrow d c) : ∀ row,
    Ln.run d ⟨pic d.p0 pc row, row.length, if b then pc else d.p0, .normal⟩ s =
      some ⟨pic d.p0 pc (row ++ s.map fun c => (c, b)), (row ++ s.map fun c => (c, b)).length, if b then pc else d.p0,
        .normal⟩ := by
  induction s with
  | nil => intro row; simp [Ln.run]
  | cons c cs ih =>
    intro row
    obtain ⟨c1, c2, c3⟩ := h c (by simp)
    have ih := ih (fun x hx => h x (by simp [hx])) (row ++ [(c, b)])
    simp only [Ln.run, Ln.step]
    rw [if_neg c1, c2, c3]
    simp only [Bool.false_eq_true, if_false, Option.bind_some]
    have e : place (pic d.p0 pc row) row.length 1 c (if b then pc else d.p0) = pic d.p0 pc (row ++ [(c, b)]) := by
      funext j
      unfold place
      rw [pic_cont, pic_cont]
      by_cases hj : j = row.length
      · rw [if_pos hj, hj]; simp [pic]
      · rw [if_neg hj, if_neg (by omega), if_neg (by simp), if_neg (by simp)]
        unfold pic
        by_cases hlt : j < row.length
        · rw [List.getElem?_append_left hlt]
        · rw [List.getElem?_eq_none (by omega), List.getElem?_eq_none (by simp; omega)]
    rw [if_neg (by decide)]
    simp only [Option.bind_some]
    rw [e]
    have l1 : row.length + 1 = (row ++ [(c, b)]).length := by simp
    rw [l1, ih]
    simp

theorem start_pic (d : Dev Pen) (pc : Pen) :
    Ln.start d = ⟨pic d.p0 pc [], ([] : List (Char × Bool)).length, if false then pc else d.p0, .normal⟩ := rfl

/-- A line of ordinary characters. -/
theorem paint_line (d : Dev Pen) (pc : Pen) (s : Str) (h : ∀ c ∈ s, Narrow d c) :
    Paint d s (pic d.p0 pc (TextArea.plain s)) s.length := by
  unfold Paint
  rw [start_pic d pc, run_text d pc false s h]
  simp [TextArea.plain]

/-- A line of ordinary characters with a highlighted part. -/
theorem paint_mark (d : Dev Pen) (pc : Pen) (pre post : List Str) (a m b : Str)
    (ha : ∀ c ∈ a, Narrow d c) (hm : ∀ c ∈ m, Narrow d c) (hb : ∀ c ∈ b, Narrow d c)
    (hpre : ∀ p ∈ pre, ∀ c ∈ p, isFinal c = false) (hpost : ∀ p ∈ post, ∀ c ∈ p, isFinal c = false)
    (hpc : pens d d.p0 pre = pc) (hp0 : pens d pc post = d.p0) :
    Paint d (a ++ sgrs pre ++ m ++ sgrs post ++ b)
      (pic d.p0 pc (TextArea.plain a ++ m.map (fun c => (c, true)) ++ TextArea.plain b)) (a.length + m.length + b.length) := by
  unfold Paint
  rw [run_append, run_append, run_append, run_append, start_pic d pc, run_text d pc false a ha, Option.bind_some]
  have e1 := run_sgrs d (pic d.p0 pc ([] ++ a.map fun c => (c, false))) ([] ++ a.map fun c => (c, false)).length pre hpre d.p0
  simp only [Bool.false_eq_true, if_false]
  rw [e1, Option.bind_some, hpc]
  have e2 := run_text d pc true m hm ([] ++ a.map fun c => (c, false))
  simp only [if_true] at e2
  rw [e2, Option.bind_some, run_sgrs d _ _ post hpost, Option.bind_some, hp0]
  have e3 := run_text d pc false b hb ([] ++ (a.map fun c => (c, false)) ++ m.map fun c => (c, true))
  simp only [Bool.false_eq_true, if_false] at e3
  rw [e3]
  simp [TextArea.plain, Nat.add_assoc]

/-- Only one picture per line. -/
theorem paint_unique (d : Dev Pen) {s : Str} {c1 c2 : Nat → Cell Pen} {k1 k2 : Nat} (h1 : Paint d s c1 k1)
    (h2 : Paint d s c2 k2) : c1 = c2 := by
  unfold Paint at h1 h2
  rw [h1] at h2
  cases h2; rfl

/-! ### Screens along one history -/

theorem drawsFrom_mem_prefix (a : App α σ) (view : σ → Str) (size : α → Option (Int × Int)) (xs : List (Msg α)) :
    ∀ (pre : List (Msg α)) (o : Op), o ∈ Screen.drawsFrom a view size (Screen.modelAfter a pre) xs →
      (∃ ys, ys <+: xs ∧ o = .render (view (Screen.modelAfter a (pre ++ ys)))) ∨
      ∃ x w h, size x = some (w, h) ∧ o = .resize w h := by
  induction xs with
  | nil => intro pre o h; simp [Screen.drawsFrom] at h
  | cons x xs ih =>
    intro pre o h
    have hm : Screen.modelAfter a (pre ++ [x]) = (a.update (Screen.modelAfter a pre) x).1 := by
      unfold Screen.modelAfter; rw [List.foldl_append]; rfl
    rw [Screen.drawsFrom, ← hm] at h
    rcases List.mem_append.1 h with h | h
    · rw [Screen.frameOps, ← hm, Screen.sizeOps_eq] at h
      rcases List.mem_append.1 h with h | h
      · right
        cases x with
        | user y =>
          simp only [Option.mem_toList, Option.map_eq_some_iff, Screen.sizeOf] at h
          obtain ⟨p, hp, rfl⟩ := h
          exact ⟨y, p.1, p.2, hp, rfl⟩
        | quit => simp [Screen.sizeOf] at h
        | batch => simp [Screen.sizeOf] at h
        | seq => simp [Screen.sizeOf] at h
      · left; exact ⟨[x], ⟨xs, rfl⟩, List.mem_singleton.1 h⟩
    · rcases ih _ o h with ⟨ys, ⟨zs, hz⟩, e⟩ | r
      · left
        refine ⟨x :: ys, ⟨zs, by rw [← hz]; rfl⟩, ?_⟩
        rw [e, List.append_assoc]; rfl
      · exact Or.inr r

theorem draws_mem_prefix (a : App α σ) (view : σ → Str) (size : α → Option (Int × Int)) (xs : List (Msg α)) (o : Op)
    (h : o ∈ Screen.draws a view size xs) :
    (∃ ys, ys <+: xs ∧ o = .render (view (Screen.modelAfter a ys))) ∨ ∃ x w h, size x = some (w, h) ∧ o = .resize w h := by
  rcases List.mem_cons.1 h with h | h
  · exact Or.inl ⟨[], List.nil_prefix, h⟩
  · exact drawsFrom_mem_prefix a view size xs [] o h

/-- Drawing `v` after `u` avoids the renderer's defect of C16: a frame that has become shorter does not end with the line
that stood there before. -/
def Kept (u v : Str) : Prop :=
  (splitLines v).length < (splitLines u).length →
    (splitLines u)[(splitLines v).length - 1]? ≠ (splitLines v).getLast?

theorem frame_zero (v : Str) : frame 0 v = splitLines v := by
  unfold frame
  simp only
  rw [if_neg (by omega)]

theorem safe_kept (rw : Char → Nat) (a : App α σ) (view : σ → Str) (xs : List (Msg α)) : ∀ (pre : List (Msg α)) (s : Spec),
    s.height = 0 → s.prev = splitLines (view (Screen.modelAfter a pre)) → s.stale = false →
    (∀ ys x, ys ++ [x] <+: xs →
      Kept (view (Screen.modelAfter a (pre ++ ys))) (view (Screen.modelAfter a (pre ++ ys ++ [x])))) →
    Safe rw s (Screen.drawsFrom a view (fun _ => none) (Screen.modelAfter a pre) xs) := by
  induction xs with
  | nil => intros; trivial
  | cons x xs ih =>
    intro pre s h1 h2 h3 hk
    have hm : Screen.modelAfter a (pre ++ [x]) = (a.update (Screen.modelAfter a pre) x).1 := by
      unfold Screen.modelAfter; rw [List.foldl_append]; rfl
    have hops : Screen.frameOps a view (fun _ => none) (Screen.modelAfter a pre) x =
        [.render (view (Screen.modelAfter a (pre ++ [x])))] := by
      rw [Screen.frameOps, ← hm, Screen.sizeOps_eq]
      cases x <;> rfl
    rw [Screen.drawsFrom, hops, ← hm]
    refine ⟨⟨?_, fun h _ => by rw [h3] at h; cases h⟩, ?_⟩
    · intro hlt _
      have := hk [] x ⟨xs, rfl⟩
      rw [h1, frame_zero] at hlt ⊢
      rw [h2] at hlt ⊢
      rw [List.append_nil] at this
      exact this hlt
    · apply ih (pre ++ [x])
      · exact h1
      · show frame s.height _ = _
        rw [h1, frame_zero]
      · rfl
      · intro ys y ⟨zs, hz⟩
        have := hk (x :: ys) y ⟨zs, by rw [← hz]; rfl⟩
        rw [show pre ++ [x] ++ ys = pre ++ x :: ys by simp]
        exact this

/-- `Screen.displayed_draws` for a terminal of constant size, with the view restricted only along the history. -/
theorem displayed_along {a : App α σ} {view : σ → Str} {d : Dev Pen}
    {t0 : TT Pen} (hW : 0 < d.W) (h0 : Ready d t0) (xs : List (Msg α))
    (hview : ∀ ys, ys <+: xs → (splitLines (view (Screen.modelAfter a ys))).length ≤ d.H ∧
      ∀ l ∈ splitLines (view (Screen.modelAfter a ys)), GoodLine d l)
    (hkept : ∀ ys x, ys ++ [x] <+: xs → Kept (view (Screen.modelAfter a ys)) (view (Screen.modelAfter a (ys ++ [x])))) :
    Screen.Displayed d t0 (trun d.tw d ({}, t0) (Screen.draws a view (fun _ => none) xs)).2
      (splitLines (view (Screen.modelAfter a xs))) := by
  have hren : ∀ o, o ∈ Screen.draws a view (fun _ => none) xs →
      ∃ ys, ys <+: xs ∧ o = .render (view (Screen.modelAfter a ys)) := by
    intro o ho
    rcases draws_mem_prefix a view _ xs o ho with h | ⟨x, w, h, hx, _⟩
    · exact h
    · cases hx
  have hnors : ∀ w h, Op.resize w h ∉ Screen.draws a view (fun _ => none) xs := by
    intro w h hm
    obtain ⟨ys, _, e⟩ := hren _ hm
    cases e
  have hrv : ∀ v, Op.render v ∈ Screen.draws a view (fun _ => none) xs →
      (splitLines v).length ≤ d.H ∧ ∀ l ∈ splitLines v, GoodLine d l := by
    intro v hm
    obtain ⟨ys, hy, e⟩ := hren _ hm
    cases e
    exact hview ys hy
  have hsafe : Safe d.tw {} (Screen.draws a view (fun _ => none) xs) := by
    refine ⟨⟨fun h => absurd h (Nat.not_lt_zero _), fun _ h => absurd rfl h⟩, ?_⟩
    apply safe_kept d.tw a view xs []
    · rfl
    · exact frame_zero _
    · rfl
    · exact hkept
  have hgood : ∀ k, k ≤ (Screen.draws a view (fun _ => none) xs).length → _ := fun k _ =>
    Screen.good_history d ((Screen.draws a view (fun _ => none) xs).take k) {} (Or.inl (Int.le_refl _))
      ⟨rfl, fun l hl => (by simp at hl), Nat.zero_le _⟩
      (fun w h hm => absurd (List.mem_of_mem_take hm) (hnors w h))
      (fun v hm => by
        obtain ⟨h2, h3⟩ := hrv v (List.mem_of_mem_take hm)
        exact ⟨h3, h2⟩)
  have inv := screen_general d.tw d hW h0 h0.top (Nat.le_refl _) 0 0 (Screen.draws a view (fun _ => none) xs) hsafe (by
    intro k hk
    obtain ⟨g1, g2, g3⟩ := hgood k hk
    rw [g1]
    refine ⟨fun l hl => ?_, by omega⟩
    obtain ⟨cells, k, hp, hk⟩ := g2 l hl
    exact ⟨_, cells, k, hp, Nat.le_of_lt hk, rfl⟩)
  have hfull := hgood _ (Nat.le_refl _)
  rw [List.take_length] at hfull
  obtain ⟨g1, g2, g3⟩ := hfull
  have hprev := (Screen.expected_draws a view (fun _ => none) d.tw xs).2.1
  have hh : Screen.heightAfter (fun _ : α => none) xs = 0 := by
    unfold Screen.heightAfter
    have : xs.filterMap (Screen.sizeOf fun _ : α => none) = [] := by
      rw [List.filterMap_eq_nil_iff]
      intro x _
      cases x <;> rfl
    rw [this]; rfl
  rw [hh] at hprev
  rw [frame_zero] at hprev
  rw [← hprev]
  refine ⟨?_, inv.above, ?_, ⟨inv.top, ?_⟩, ⟨?_, inv.col⟩, inv.clean.pen, inv.clean.ps, inv.clean.pend⟩
  · intro i l hl
    obtain ⟨cells, k, hp, hk, hrow⟩ := inv.cells i l (by rw [g1]; exact hl)
    obtain ⟨cells', k', hp', hk'⟩ := g2 l (List.mem_of_getElem? hl)
    have heq : k = k' := by
      have a := paint_width d hp
      have b := paint_width d hp'
      omega
    rw [if_pos (by omega)] at hrow
    exact ⟨k, by rw [hrow]; exact hp⟩
  · have := inv.below; rw [g1] at this; exact this
  · have := inv.onscreen; rw [g1] at this; exact this
  · have := inv.row; rw [g1] at this; exact this

/-- C189 with the view restricted only along the keys: nobody but the keyboard sends messages; at every moment the
terminal shows the view of the model after some of the first keys, after all of them when the input is read and the
program is idle. -/
theorem keys_screen {a : App α σ} {view : σ → Str} {cap : Nat} {key : KeyMsg → α} {d : Dev Pen} {t0 : TT Pen}
    {chunks : List (List Nat)} {f : KeyScreen.St α σ Pen}
    (h : KeyScreen.Reach a view (fun _ => none) cap key d t0 chunks f) (hW : 0 < d.W) (h0 : Ready d t0)
    (hview : ∀ i, (splitLines (view (KeyScreen.afterKeys a key ((Input.messages chunks).take i)))).length ≤ d.H ∧
      ∀ l ∈ splitLines (view (KeyScreen.afterKeys a key ((Input.messages chunks).take i))), GoodLine d l)
    (hkept : ∀ i, Kept (view (KeyScreen.afterKeys a key ((Input.messages chunks).take i)))
      (view (KeyScreen.afterKeys a key ((Input.messages chunks).take (i + 1)))))
    (ho : f.s.others = []) :
    ∃ k, f.s.p.model = KeyScreen.afterKeys a key ((Input.messages chunks).take k) ∧
      Screen.Displayed d t0 f.scr.2 (splitLines (view (KeyScreen.afterKeys a key ((Input.messages chunks).take k)))) ∧
      (f.s.stolen = 0 → f.s.cancelled = false → f.s.p.loop = .select → f.s.p.queue = [] → f.s.ended = true →
        (Input.messages chunks).length ≤ k) := by
  obtain ⟨hr, hs⟩ := KeyScreen.reach_inv h
  obtain ⟨hpre, hm, hq, hd, hmod⟩ := Typing.C188_in_order_partial hr
  have hacc := KeyScreen.merge_nil hm ho
  have hcons : f.s.p.consumed <+: f.s.typed := ⟨f.s.p.queue, by rw [← hq, hacc]⟩
  obtain ⟨n1, hc⟩ := KeyScreen.prefix_keyMsgs key (hcons.trans hpre)
  have hfil : f.s.p.consumed.filter Msg.isUser = f.s.p.consumed := by
    rw [hc]
    apply List.filter_eq_self.2
    intro x hx
    obtain ⟨k, _, rfl⟩ := List.mem_map.1 hx
    rfl
  rw [hfil] at hd
  have hdp : f.s.p.delivered <+: Typing.keyMsgs key (Input.messages chunks) :=
    List.IsPrefix.trans ⟨_, hd⟩ (hcons.trans hpre)
  obtain ⟨k, hk⟩ := KeyScreen.prefix_keyMsgs key hdp
  have hma : Screen.modelAfter a f.s.p.delivered = KeyScreen.afterKeys a key ((Input.messages chunks).take k) := by
    rw [hk, KeyScreen.modelAfter_keys]
  refine ⟨k, ?_, ?_, ?_⟩
  · rw [← hma]; exact hmod
  · rw [← hma, hs]
    refine displayed_along hW h0 _ ?_ ?_
    · intro ys hy
      obtain ⟨i, hi⟩ := KeyScreen.prefix_keyMsgs key (hy.trans hdp)
      rw [hi, KeyScreen.modelAfter_keys]
      exact hview i
    · intro ys x hy
      have hy2 := hy.trans hdp
      obtain ⟨i1, e1⟩ := KeyScreen.prefix_keyMsgs key ((List.prefix_append ys [x]).trans hy2)
      obtain ⟨i2, e2⟩ := KeyScreen.prefix_keyMsgs key hy2
      have l1 := congrArg List.length e1
      have l2 := congrArg List.length e2
      have l3 := hy2.length_le
      simp only [Typing.keyMsgs, List.length_map, List.length_take, List.length_append, List.length_cons,
        List.length_nil] at l1 l2 l3
      have e1' : (Input.messages chunks).take i1 = (Input.messages chunks).take ys.length := by
        rw [List.take_eq_take_iff]; omega
      have e2' : (Input.messages chunks).take i2 = (Input.messages chunks).take (ys.length + 1) := by
        rw [List.take_eq_take_iff]; omega
      rw [e2, e1, KeyScreen.modelAfter_keys, KeyScreen.modelAfter_keys, e1', e2']
      exact hkept ys.length
  · intro h1 h2 hl hqq he
    have i := Typing.tinv hr
    obtain ⟨d1, d2⟩ := i.drained he h1 h2
    have hf := i.flow h1 h2
    rw [d1, Input.keysLeft_none d2] at hf
    have hf' : f.s.typed = Typing.keyMsgs key (Input.messages chunks) := by
      have : f.s.typed ++ [] ++ [] = _ := hf
      rwa [List.append_nil, List.append_nil] at this
    have hdl : f.s.p.delivered = f.s.typed := by
      have e1 : f.s.p.delivered ++ [] = f.s.p.consumed := by rw [← hd, hl]; rfl
      have e2 : f.s.p.consumed ++ f.s.p.queue = f.s.typed := by rw [← hq, hacc]
      rw [hqq, List.append_nil] at e2
      rw [List.append_nil] at e1
      rw [e1, e2]
    have := congrArg List.length (hk.symm.trans (hdl.trans hf'))
    unfold Typing.keyMsgs at this
    rw [List.length_map, List.length_map, List.length_take] at this
    omega

end Phoenix.Picture
