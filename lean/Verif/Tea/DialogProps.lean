import Verif.Tea.DialogModel
import Verif.Tea.KeyScreenProps
/-
C200: a dialog in a running program.
-/
set_option linter.unusedVariables false
set_option linter.unusedSimpArgs false
namespace Phoenix.Program
variable {α σ : Type}

/-! ### Programs whose commands return one ordinary message or Quit -/

/-- The messages a command returns. -/
def cmdMsgs : Cmd α → List (Msg α)
  | .ret ms => ms
  | _ => []

/-- No Batch or Sequence message. -/
def Plain (m : Msg α) : Prop := m.isUser = true ∨ m = .quit

structure Simple (a : App α σ) : Prop where
  init : a.initCmd = none
  one : ∀ m x c, (a.update m x).2 = some c → ∃ r, c = .ret [r] ∧ Plain r

/-- The messages of all commands spawned by the calls of Update. -/
def promised (a : App α σ) : σ → List (Msg α) → List (Msg α)
  | _, [] => []
  | m, x :: xs => ((a.update m x).2.toList.flatMap cmdMsgs) ++ promised a (a.update m x).1 xs

theorem promised_snoc (a : App α σ) (xs : List (Msg α)) (x : Msg α) : ∀ m, promised a m (xs ++ [x]) =
    promised a m xs ++ (a.update (xs.foldl (fun m x => (a.update m x).1) m) x).2.toList.flatMap cmdMsgs := by
  induction xs with
  | nil => intro m; simp [promised]
  | cons y ys ih => intro m; simp only [List.cons_append, promised, ih, List.foldl_cons, List.append_assoc]

theorem promised_plain {a : App α σ} (ha : Simple a) (xs : List (Msg α)) : ∀ m, ∀ r ∈ promised a m xs, Plain r := by
  induction xs with
  | nil => intro m r h; cases h
  | cons y ys ih =>
    intro m r h
    rw [promised] at h
    rcases List.mem_append.1 h with h | h
    · cases hc : (a.update m y).2 with
      | none => rw [hc] at h; cases h
      | some c =>
        rw [hc] at h
        obtain ⟨q, rfl, hp⟩ := ha.one m y c hc
        simp only [Option.toList_some, List.flatMap_cons, List.flatMap_nil, cmdMsgs, List.append_nil, List.mem_singleton] at h
        rw [h]; exact hp
    · exact ih _ r h

structure CInv (a : App α σ) (s : St α σ) : Prop where
  one : ∀ c ∈ s.running, ∃ r, c = .ret [r]
  cmds : (s.results ++ s.running.flatMap cmdMsgs).Perm (promised a a.init s.delivered)
  drop : s.dropped.length ≤ s.quitCalls
  ends : s.loop = .done → s.quitCalls = 0 → Msg.quit ∈ s.consumed

theorem cinv_start {a : App α σ} (ha : Simple a) : CInv a (start a) := by
  refine ⟨?_, ?_, Nat.le_refl _, fun h => (by cases h)⟩
  · intro c hc; simp [start, ha.init, spawn] at hc
  · simp [start, ha.init, spawn, promised]

theorem cinv_step {a : App α σ} {cap : Nat} (ha : Simple a) {s s' : St α σ} (hi : Inv a cap s) (h : CInv a s)
    (st : Step a cap s s') : CInv a s' := by
  cases st with
  | recv m q hl hq =>
    refine ⟨h.one, h.cmds, h.drop, ?_⟩
    intro e h0
    cases m with
    | quit => exact List.mem_append_right _ (List.mem_singleton.2 rfl)
    | user | batch | seq => cases e
  | update m hl =>
    refine ⟨?_, ?_, h.drop, fun e => (by cases e)⟩
    · intro c hc
      unfold finish spawn at hc
      cases hu : (a.update s.model m).2 with
      | none => simp only [hu] at hc; exact h.one c hc
      | some c' =>
        simp only [hu, List.mem_cons] at hc
        rcases hc with rfl | hc
        · obtain ⟨r, e, _⟩ := ha.one _ _ _ hu; exact ⟨r, e⟩
        · exact h.one c hc
    · show (s.results ++ (spawn (a.update s.model m).2 s.running).flatMap cmdMsgs).Perm
        (promised a a.init (s.delivered ++ [m]))
      rw [promised_snoc, ← hi.model]
      have e : ((spawn (a.update s.model m).2 s.running).flatMap cmdMsgs).Perm
          (s.running.flatMap cmdMsgs ++ (a.update s.model m).2.toList.flatMap cmdMsgs) := by
        cases hu : (a.update s.model m).2 with
        | none => simp [spawn]
        | some c' =>
          simp only [spawn, List.flatMap_cons, Option.toList_some, List.flatMap_nil, List.append_nil]
          exact List.perm_append_comm
      have e2 := e.append_left s.results
      rw [← List.append_assoc] at e2
      exact e2.trans (h.cmds.append_right _)
  | push m rest hl hq => exact ⟨h.one, h.cmds, h.drop, fun e => (by cases e)⟩
  | pushed hl => exact ⟨h.one, h.cmds, h.drop, fun e => (by cases e)⟩
  | result c m l r hr hret =>
    obtain ⟨q, rfl⟩ := h.one c (by rw [hr]; exact List.mem_append_right _ List.mem_cons_self)
    have em : m = q := by
      cases hret with
      | ret _ _ hm => exact List.mem_singleton.1 hm
    subst em
    refine ⟨?_, ?_, h.drop, h.ends⟩
    · intro c hc
      apply h.one c
      rw [hr]
      rcases List.mem_append.1 hc with hc | hc
      · exact List.mem_append_left _ hc
      · exact List.mem_append_right _ (List.mem_cons_of_mem _ hc)
    · show ((s.results ++ [m]) ++ (l ++ r).flatMap cmdMsgs).Perm (promised a a.init s.delivered)
      have := h.cmds
      rw [hr, List.flatMap_append, List.flatMap_cons] at this
      refine List.Perm.trans ?_ this
      rw [List.flatMap_append, List.append_assoc]
      refine List.Perm.append_left _ ?_
      show (m :: (l.flatMap cmdMsgs ++ r.flatMap cmdMsgs)).Perm (l.flatMap cmdMsgs ++ (m :: r.flatMap cmdMsgs))
      exact List.perm_middle.symm
  | deliver m l r hb hq => exact ⟨h.one, h.cmds, h.drop, h.ends⟩

theorem cinv_call {a : App α σ} {cap : Nat} {s s' : St α σ} (h : CInv a s) (c : Call cap s s') : CInv a s' := by
  cases c with
  | send m hq => exact ⟨h.one, h.cmds, h.drop, h.ends⟩
  | quitLoop => exact ⟨h.one, h.cmds, Nat.le_succ_of_le h.drop, fun _ e => (by cases e)⟩
  | quitCmd m l r hb hq =>
    refine ⟨h.one, h.cmds, ?_, fun _ e => (by cases e)⟩
    show (s.dropped ++ [m]).length ≤ s.quitCalls + 1
    have := h.drop
    simp; omega
  | quitLost => exact ⟨h.one, h.cmds, Nat.le_succ_of_le h.drop, fun _ e => (by cases e)⟩

end Phoenix.Program

namespace Phoenix.Typing
open Phoenix.Program
variable {α σ : Type}

theorem cinv {a : App α σ} (ha : Simple a) {cap : Nat} {key : KeyMsg → α} {chunks : List (List Nat)} {s : St α σ}
    (h : Reach a cap key chunks s) : CInv a s.p := by
  induction h with
  | start => exact cinv_start ha
  | step s s' hr st ih =>
    cases st with
    | prog p' hst => exact cinv_step ha (tinv hr).prog ih hst
    | call p' hc => exact cinv_call ih hc
    | read | eof | cancel => exact ih
    | put m he hh hq => exact ⟨ih.one, ih.cmds, ih.drop, ih.ends⟩
    | steal m he hh hq => exact ⟨ih.one, ih.cmds, Nat.le_succ_of_le ih.drop, fun _ e => (by cases e)⟩

/-- If only ordinary messages and Quit are sent, there are no others, and the loop never re-sends any. -/
theorem all_plain {a : App α σ} (ha : Simple a) {cap : Nat} {key : KeyMsg → α} {chunks : List (List Nat)} {s : St α σ}
    (h : Reach a cap key chunks s) (hs : ∀ m ∈ from' .send s.p.accepted, Plain m) :
    (∀ x ∈ s.p.accepted, Plain x.2 ∧ x.1 ≠ .loop) ∧ s.p.loop.rest = [] ∧ ∀ ms, s.p.loop ≠ .push ms := by
  induction h with
  | start => exact ⟨fun x hx => (by cases hx), rfl, fun ms e => (by cases e)⟩
  | step s s' hr st ih =>
    have ht := (tinv hr).prog
    have hc := cinv ha hr
    have hmono : ∀ (m : Msg α) (l : List (Src × Msg α)) (x : Src × Msg α), m ∈ from' .send l → m ∈ from' .send (l ++ [x]) := by
      intro m l x hm
      unfold from' at *
      rw [List.filter_append, List.map_append]
      exact List.mem_append_left _ hm
    have hblock : ∀ m ∈ s.p.blocked, Plain m := by
      intro m hm
      apply promised_plain ha s.p.delivered a.init
      refine hc.cmds.subset (List.mem_append_left _ ?_)
      exact ht.results.symm.subset (List.mem_append_right _ (List.mem_append_left _ hm))
    cases st with
    | prog p' hst =>
      cases hst with
      | recv m q hl hq =>
        obtain ⟨i1, i2, i3⟩ := ih hs
        have hm : Plain m := by
          have : m ∈ s.p.accepted.map (·.2) := by
            rw [ht.fifo, hq]
            exact List.mem_append_right _ List.mem_cons_self
          obtain ⟨x, hx, rfl⟩ := List.mem_map.1 this
          exact (i1 x hx).1
        cases m with
        | user | quit => exact ⟨i1, rfl, fun ms e => (by cases e)⟩
        | batch | seq => rcases hm with h | h <;> cases h
      | update m hl =>
        obtain ⟨i1, i2, i3⟩ := ih hs
        exact ⟨i1, rfl, fun ms e => (by cases e)⟩
      | push m rest hl hq =>
        exact absurd hl ((ih (fun m' hm => hs m' (hmono m' _ _ hm))).2.2 _)
      | pushed hl => exact absurd hl ((ih hs).2.2 _)
      | result c m l r hr' hret => exact ih hs
      | deliver m l r hb hq =>
        obtain ⟨i1, i2, i3⟩ := ih (fun m' hm => hs m' (hmono m' _ _ hm))
        refine ⟨?_, i2, i3⟩
        intro x hx
        rcases List.mem_append.1 hx with hx | hx
        · exact i1 x hx
        · rw [List.mem_singleton.1 hx]
          exact ⟨hblock m (by rw [hb]; exact List.mem_append_right _ List.mem_cons_self), fun e => (by cases e)⟩
    | call p' hcall =>
      cases hcall with
      | send m hq =>
        obtain ⟨i1, i2, i3⟩ := ih (fun m' hm => hs m' (hmono m' _ _ hm))
        refine ⟨?_, i2, i3⟩
        intro x hx
        rcases List.mem_append.1 hx with hx | hx
        · exact i1 x hx
        · rw [List.mem_singleton.1 hx]
          refine ⟨hs m ?_, fun e => (by cases e)⟩
          show m ∈ from' .send (s.p.accepted ++ [(Src.send, m)])
          rw [from_append, if_pos rfl]
          exact List.mem_append_right _ (List.mem_singleton.2 rfl)
      | quitLoop => exact ⟨(ih hs).1, rfl, fun ms e => (by cases e)⟩
      | quitCmd | quitLost => exact ih hs
    | read | eof | cancel | steal => exact ih hs
    | put m he hh hq =>
      obtain ⟨i1, i2, i3⟩ := ih (fun m' hm => hs m' (hmono m' _ _ hm))
      refine ⟨?_, i2, i3⟩
      intro x hx
      rcases List.mem_append.1 hx with hx | hx
      · exact i1 x hx
      · rw [List.mem_singleton.1 hx]
        exact ⟨.inl rfl, fun e => (by cases e)⟩

end Phoenix.Typing

namespace Phoenix.Dialog
open Phoenix.Program
variable {σ β : Type}

theorem simple (c : Comp σ β) : Simple (app c) := by
  refine ⟨rfl, ?_⟩
  intro m x cmd h
  cases x with
  | user y =>
    cases y with
    | key k =>
      have h : cmdOf (c.upd m.comp k).2 = some cmd := h
      cases ho : (c.upd m.comp k).2 with
      | none => rw [ho] at h; cases h
      | answer b => rw [ho] at h; injection h with h; exact ⟨_, h.symm, .inl rfl⟩
      | quit => rw [ho] at h; injection h with h; exact ⟨_, h.symm, .inr rfl⟩
    | answer b => injection h with h; exact ⟨_, h.symm, .inr rfl⟩
  | quit => cases h
  | batch => cases h
  | seq => cases h

/-- A key message. -/
def isKey : Msg (DMsg β) → Bool
  | .user (.key _) => true
  | _ => false

/-- The key of a key message. -/
def keyOf : Msg (DMsg β) → Option KeyMsg
  | .user (.key k) => some k
  | _ => none

/-- The answer of a result message. -/
def ansOf : Msg (DMsg β) → Option β
  | .user (.answer b) => some b
  | _ => none

theorem fold_model (c : Comp σ β) (xs : List (Msg (DMsg β))) : ∀ m : M σ β,
    (xs.foldl (fun m x => ((app c).update m x).1) m).comp = (xs.filterMap keyOf).foldl (fun s k => (c.upd s k).1) m.comp ∧
    (xs.foldl (fun m x => ((app c).update m x).1) m).answers = m.answers ++ xs.filterMap ansOf := by
  induction xs with
  | nil => intro m; exact ⟨rfl, (List.append_nil _).symm⟩
  | cons x xs ih =>
    intro m
    rw [List.foldl_cons]
    cases x with
    | user y =>
      cases y with
      | key k => exact ih _
      | answer b =>
        obtain ⟨h1, h2⟩ := ih ((app c).update m (.user (.answer b))).1
        refine ⟨h1, h2.trans ?_⟩
        show (m.answers ++ [b]) ++ _ = m.answers ++ (b :: _)
        rw [List.append_assoc]; rfl
    | quit => exact ih m
    | batch => exact ih m
    | seq => exact ih m

theorem promised_answers (c : Comp σ β) (xs : List (Msg (DMsg β))) : ∀ m : M σ β,
    (promised (app c) m xs).filterMap ansOf = (outsFrom c m.comp (xs.filterMap keyOf)).filterMap Out.answer? := by
  induction xs with
  | nil => intro m; rfl
  | cons x xs ih =>
    intro m
    rw [promised, List.filterMap_append, ih]
    cases x with
    | user y =>
      cases y with
      | key k =>
        show ((cmdOf (c.upd m.comp k).2).toList.flatMap cmdMsgs).filterMap ansOf ++ _ =
          ((c.upd m.comp k).2 :: outsFrom c (c.upd m.comp k).1 (xs.filterMap keyOf)).filterMap Out.answer?
        rw [List.filterMap_cons]
        cases (c.upd m.comp k).2 <;> rfl
      | answer b => rfl
    | quit => rfl
    | batch => rfl
    | seq => rfl

theorem promised_quit (c : Comp σ β) (xs : List (Msg (DMsg β))) : ∀ m : M σ β,
    Msg.quit ∈ promised (app c) m xs ↔ xs.filterMap ansOf ≠ [] ∨ Out.quit ∈ outsFrom c m.comp (xs.filterMap keyOf) := by
  induction xs with
  | nil =>
    intro m
    constructor
    · intro h; cases h
    · intro h
      rcases h with h | h
      · exact absurd rfl h
      · cases h
  | cons x xs ih =>
    intro m
    rw [promised, List.mem_append, ih]
    cases x with
    | user y =>
      cases y with
      | key k =>
        show Msg.quit ∈ (cmdOf (c.upd m.comp k).2).toList.flatMap cmdMsgs ∨ _ ↔
          xs.filterMap ansOf ≠ [] ∨ Out.quit ∈ (c.upd m.comp k).2 :: outsFrom c (c.upd m.comp k).1 (xs.filterMap keyOf)
        rw [List.mem_cons]
        have : Msg.quit ∈ (cmdOf (c.upd m.comp k).2).toList.flatMap cmdMsgs ↔ Out.quit = (c.upd m.comp k).2 := by
          cases (c.upd m.comp k).2 <;> simp [cmdOf, cmdMsgs]
        rw [this]
        show Out.quit = _ ∨ (_ ∨ Out.quit ∈ outsFrom c (c.upd m.comp k).1 _) ↔ _
        constructor
        · rintro (h | h | h)
          · exact .inr (.inl h)
          · exact .inl h
          · exact .inr (.inr h)
        · rintro (h | h | h)
          · exact .inr (.inl h)
          · exact .inl h
          · exact .inr (.inr h)
      | answer b =>
        constructor
        · intro _; left; show b :: _ ≠ []; exact List.cons_ne_nil _ _
        · intro _; left; exact List.mem_singleton.2 rfl
    | quit => simp only [app, Option.toList_none, List.flatMap_nil, List.not_mem_nil, false_or]; exact Iff.rfl
    | batch => simp only [app, Option.toList_none, List.flatMap_nil, List.not_mem_nil, false_or]; exact Iff.rfl
    | seq => simp only [app, Option.toList_none, List.flatMap_nil, List.not_mem_nil, false_or]; exact Iff.rfl


/-! ### What the queue has taken -/

theorem from_mem {α : Type} {src : Src} {m : Msg α} {l : List (Src × Msg α)} : m ∈ from' src l ↔ (src, m) ∈ l := by
  unfold from'
  simp only [List.mem_map, List.mem_filter, beq_iff_eq]
  constructor
  · rintro ⟨⟨s, x⟩, ⟨h1, h2⟩, rfl⟩
    simp only at h2
    subst h2; exact h1
  · intro h; exact ⟨_, ⟨h, rfl⟩, rfl⟩

theorem filter_from {α : Type} (src : Src) (p : Msg α → Bool) (l : List (Src × Msg α))
    (h : ∀ x ∈ l, p x.2 = true ↔ x.1 = src) : (l.map (·.2)).filter p = from' src l := by
  induction l with
  | nil => rfl
  | cons x xs ih =>
    have h1 := h x List.mem_cons_self
    have h2 := ih (fun y hy => h y (List.mem_cons_of_mem _ hy))
    unfold from' at h2 ⊢
    rw [List.map_cons, List.filter_cons, List.filter_cons, h2]
    by_cases e : x.1 = src
    · rw [if_pos (h1.2 e), if_pos (by simp [e])]; rfl
    · rw [if_neg (fun hp => e (h1.1 hp)), if_neg (by simp [e])]

theorem filterMap_from {α γ : Type} (src : Src) (f : Msg α → Option γ) (l : List (Src × Msg α))
    (h : ∀ x ∈ l, x.1 ≠ src → f x.2 = none) : (l.map (·.2)).filterMap f = (from' src l).filterMap f := by
  induction l with
  | nil => rfl
  | cons x xs ih =>
    have h2 := ih (fun y hy => h y (List.mem_cons_of_mem _ hy))
    unfold from' at h2 ⊢
    rw [List.map_cons, List.filterMap_cons, h2, List.filter_cons]
    by_cases e : x.1 = src
    · rw [if_pos (by simp [e]), List.map_cons, List.filterMap_cons]
    · rw [if_neg (by simp [e]), h x List.mem_cons_self e]

theorem keyOf_filter (xs : List (Msg (DMsg β))) : (xs.filter isKey).filterMap keyOf = xs.filterMap keyOf := by
  induction xs with
  | nil => rfl
  | cons x xs ih =>
    rw [List.filter_cons, List.filterMap_cons]
    rcases x with (_ | _) | _ | _ | _
    · rw [if_pos (by simp [isKey]), List.filterMap_cons, ih]
    all_goals
      rw [if_neg (by simp [isKey]), ih]
      rfl

theorem keyOf_msgs (ks : List KeyMsg) : (Typing.keyMsgs (DMsg.key (β := β)) ks).filterMap keyOf = ks := by
  unfold Typing.keyMsgs
  rw [List.filterMap_map]
  conv => rhs; rw [← List.filterMap_some (l := ks)]
  rfl

section
variable {c : Comp σ β} {cap : Nat} {chunks : List (List Nat)} {s : Typing.St (DMsg β) (M σ β)}

theorem typed_key (h : Typing.Reach (app c) cap .key chunks s) : ∀ m ∈ s.typed, ∃ k, m = .user (.key k) := by
  intro m hm
  obtain ⟨k, _, rfl⟩ := List.mem_map.1 ((Typing.tinv h).pre.subset hm)
  exact ⟨k, rfl⟩

/-- Where the messages in the queue come from. -/
theorem sources (h : Typing.Reach (app c) cap .key chunks s) (ha : Alone s) (x : Src × Msg (DMsg β)) (hx : x ∈ s.p.accepted) :
    (x.1 = .send ∧ ∃ k, x.2 = .user (.key k)) ∨
    (x.1 = .cmd ∧ x.2 ∈ s.p.results ∧ ((∃ b, x.2 = .user (.answer b)) ∨ x.2 = .quit)) := by
  obtain ⟨src, m⟩ := x
  have hplain := Typing.all_plain (simple c) h (by
    intro m hm
    rw [ha] at hm
    obtain ⟨k, rfl⟩ := typed_key h m hm
    exact .inl rfl)
  cases src with
  | loop => exact absurd rfl (hplain.1 _ hx).2
  | send =>
    left
    refine ⟨rfl, typed_key h m ?_⟩
    rw [← ha]; exact from_mem.2 hx
  | cmd =>
    right
    have hr : m ∈ s.p.results := (Typing.tinv h).prog.results.symm.subset (List.mem_append_left _ (from_mem.2 hx))
    refine ⟨rfl, hr, ?_⟩
    have hp : m ∈ promised (app c) (app c).init s.p.delivered :=
      (Typing.cinv (simple c) h).cmds.subset (List.mem_append_left _ hr)
    have : ∀ (xs : List (Msg (DMsg β))) (m0 : M σ β), m ∈ promised (app c) m0 xs →
        (∃ b, m = .user (.answer b)) ∨ m = .quit := by
      intro xs
      induction xs with
      | nil => intro m0 h; cases h
      | cons y ys ih =>
        intro m0 hm
        rw [promised] at hm
        rcases List.mem_append.1 hm with hm | hm
        · cases y with
          | user z =>
            cases z with
            | key k =>
              have hm : m ∈ (cmdOf (c.upd m0.comp k).2).toList.flatMap cmdMsgs := hm
              cases ho : (c.upd m0.comp k).2 with
              | none => rw [ho] at hm; cases hm
              | answer b => rw [ho] at hm; exact .inl ⟨b, List.mem_singleton.1 hm⟩
              | quit => rw [ho] at hm; exact .inr (List.mem_singleton.1 hm)
            | answer b => exact .inr (List.mem_singleton.1 hm)
          | quit => cases hm
          | batch => cases hm
          | seq => cases hm
        · exact ih _ hm
    exact this _ _ hp

/-- The keys Update has been called with are the first keys of the input. -/
theorem delivered_first (h : Typing.Reach (app c) cap .key chunks s) (ha : Alone s) :
    ∃ k, s.p.delivered.filterMap keyOf = (Input.messages chunks).take k ∧
      (s.stolen = 0 → s.cancelled = false → s.p.loop = .select → s.p.queue = [] → s.ended = true →
        (Input.messages chunks).length ≤ k) := by
  have i := Typing.tinv h
  have hacc : (s.p.accepted.map (·.2)).filter isKey = s.typed := by
    rw [← ha]
    apply filter_from
    intro x hx
    rcases sources h ha x hx with ⟨h1, k, h2⟩ | ⟨h1, _, ⟨b, h2⟩ | h2⟩
    · rw [h1, h2]; exact ⟨fun _ => rfl, fun _ => rfl⟩
    · rw [h1, h2]; exact ⟨fun e => (by cases e), fun e => (by cases e)⟩
    · rw [h1, h2]; exact ⟨fun e => (by cases e), fun e => (by cases e)⟩
  have hcons : (s.p.consumed.filter Msg.isUser).filter isKey = s.p.consumed.filter isKey := by
    rw [List.filter_filter]
    apply List.filter_congr
    intro x _
    cases x with
    | user y => cases y <;> rfl
    | quit => rfl
    | batch => rfl
    | seq => rfl
  have hd : s.p.delivered.filter isKey ++ s.p.loop.current.filter isKey ++ s.p.queue.filter isKey = s.typed := by
    rw [← List.filter_append, i.prog.deliv, hcons, ← List.filter_append, ← i.prog.fifo]; exact hacc
  have hpre : s.p.delivered.filter isKey <+: Typing.keyMsgs DMsg.key (Input.messages chunks) :=
    List.IsPrefix.trans ⟨_, by rw [← hd, List.append_assoc]⟩ i.pre
  by_cases hall : s.stolen = 0 ∧ s.cancelled = false ∧ s.p.loop = .select ∧ s.p.queue = [] ∧ s.ended = true
  · obtain ⟨h1, h2, h3, h4, h5⟩ := hall
    refine ⟨(Input.messages chunks).length, ?_, fun _ _ _ _ _ => Nat.le_refl _⟩
    rw [List.take_of_length_le (Nat.le_refl _)]
    have hf := i.flow h1 h2
    obtain ⟨d1, d2⟩ := i.drained h5 h1 h2
    rw [d1, Input.keysLeft_none d2] at hf
    have hf : s.typed ++ [] ++ [] = Typing.keyMsgs DMsg.key (Input.messages chunks) := hf
    rw [List.append_nil, List.append_nil, ← hd, h3, h4] at hf
    have hf : s.p.delivered.filter isKey ++ [] ++ [] = Typing.keyMsgs DMsg.key (Input.messages chunks) := hf
    rw [List.append_nil, List.append_nil] at hf
    rw [← keyOf_filter, hf, keyOf_msgs]
  · obtain ⟨k, hk⟩ := KeyScreen.prefix_keyMsgs DMsg.key hpre
    refine ⟨k, ?_, fun h1 h2 h3 h4 h5 => absurd ⟨h1, h2, h3, h4, h5⟩ hall⟩
    rw [← keyOf_filter, hk, keyOf_msgs]

/-- C200.  A program around an answering component, keys arriving as bytes, nobody else sending messages.  In every
execution, at every moment, for some number `k` of the first keys: the component is in the state these `k` keys lead to;
every answer received was given by one of these keys, and there are no more answers than were given; if the program has
ended without a Quit call, an answer was received or one of the keys was answered with tea.Quit; if nothing more can
happen and one of these keys gave an answer or quit, the program has ended.  When the input is read and the program is
idle, `k` covers all keys. -/
theorem C200_dialog (h : Typing.Reach (app c) cap .key chunks s) (ha : Alone s) :
    ∃ k, let ks := (Input.messages chunks).take k
      s.p.model.comp = after c ks ∧
      (∀ b ∈ s.p.model.answers, b ∈ answers c ks) ∧ s.p.model.answers.length ≤ (answers c ks).length ∧
      (s.p.loop = .done → s.p.quitCalls = 0 → s.p.model.answers ≠ [] ∨ Out.quit ∈ outs c ks) ∧
      (0 < cap → Quiescent (app c) cap s.p → s.p.quitCalls = 0 → answers c ks ≠ [] ∨ Out.quit ∈ outs c ks →
        s.p.loop = .done) ∧
      (s.stolen = 0 → s.cancelled = false → s.p.loop = .select → s.p.queue = [] → s.ended = true →
        (Input.messages chunks).length ≤ k) := by
  obtain ⟨k, hk, hall⟩ := delivered_first h ha
  have i := (Typing.tinv h).prog
  have ci := Typing.cinv (simple c) h
  obtain ⟨m1, m2⟩ := fold_model c s.p.delivered (app c).init
  rw [← i.model] at m1 m2
  have m2 : s.p.model.answers = s.p.delivered.filterMap ansOf := m2
  rw [hk] at m1
  -- the answers promised
  have hans : (promised (app c) (app c).init s.p.delivered).filterMap ansOf = answers c ((Input.messages chunks).take k) := by
    rw [promised_answers, hk]; rfl
  have hquit : Msg.quit ∈ promised (app c) (app c).init s.p.delivered ↔
      s.p.model.answers ≠ [] ∨ Out.quit ∈ outs c ((Input.messages chunks).take k) := by
    rw [promised_quit, hk, m2]; rfl
  have hperm := (ci.cmds.filterMap ansOf)
  rw [hans, List.filterMap_append] at hperm
  have hres := i.results.filterMap ansOf
  rw [List.filterMap_append] at hres
  have hacc : (s.p.accepted.map (·.2)).filterMap ansOf = (from' .cmd s.p.accepted).filterMap ansOf := by
    apply filterMap_from
    intro x hx hne
    rcases sources h ha x hx with ⟨h1, k, h2⟩ | ⟨h1, _⟩
    · rw [h2]; rfl
    · exact absurd h1 hne
  have hsub : (s.p.delivered.filterMap ansOf).Sublist ((from' .cmd s.p.accepted).filterMap ansOf) := by
    rw [← hacc]
    apply List.Sublist.filterMap
    rw [i.fifo]
    refine List.Sublist.trans ?_ (List.sublist_append_left _ _)
    refine List.Sublist.trans ?_ (List.filter_sublist (p := Msg.isUser))
    rw [← i.deliv]
    exact List.sublist_append_left _ _
  refine ⟨k, m1, ?_, ?_, ?_, ?_, hall⟩
  · intro b hb
    rw [m2] at hb
    refine hperm.subset (List.mem_append_left _ ?_)
    exact hres.symm.subset (List.mem_append_left _ (hsub.subset hb))
  · rw [m2]
    have e1 := hperm.length_eq
    have e2 := hres.length_eq
    have e3 := hsub.length_le
    rw [List.length_append] at e1 e2
    omega
  · intro hd h0
    have hq := ci.ends hd h0
    have : Msg.quit ∈ s.p.accepted.map (·.2) := by rw [i.fifo]; exact List.mem_append_left _ hq
    obtain ⟨x, hx, hxq⟩ := List.mem_map.1 this
    rw [← hquit]
    rcases sources h ha x hx with ⟨_, k, h2⟩ | ⟨_, h1, _⟩
    · rw [hxq] at h2; cases h2
    · rw [hxq] at h1
      exact ci.cmds.subset (List.mem_append_left _ h1)
  · intro hcap hqs h0 hwant
    have hplain := Typing.all_plain (simple c) h (by
      intro m hm
      rw [ha] at hm
      obtain ⟨k, rfl⟩ := typed_key h m hm
      exact .inl rfl)
    cases hl : s.p.loop with
    | done => rfl
    | busy m => exact absurd (Step.update _ _ hl) (hqs _)
    | push ms => exact absurd hl (hplain.2.2 ms)
    | select =>
      exfalso
      have hq : s.p.queue = [] := by
        cases hq : s.p.queue with
        | nil => rfl
        | cons m q => exact absurd (Step.recv _ _ _ hl hq) (hqs _)
      have hrun : s.p.running = [] := by
        cases hr : s.p.running with
        | nil => rfl
        | cons cm rs =>
          obtain ⟨r, rfl⟩ := ci.one cm (by rw [hr]; exact List.mem_cons_self)
          exact absurd (Step.result _ (.ret [r]) r [] rs hr (.ret _ _ (List.mem_singleton.2 rfl))) (hqs _)
      have hb : s.p.blocked = [] := by
        cases hb : s.p.blocked with
        | nil => rfl
        | cons m rs => exact absurd (Step.deliver _ m [] rs hb (by rw [hq]; exact hcap)) (hqs _)
      have hd : s.p.dropped = [] := List.eq_nil_of_length_eq_zero (by have := ci.drop; omega)
      have hcons : ∀ m ∈ promised (app c) (app c).init s.p.delivered, m ∈ s.p.consumed := by
        intro m hm
        have hm := ci.cmds.symm.subset hm
        rw [hrun, List.flatMap_nil, List.append_nil] at hm
        have hm := i.results.subset hm
        rw [hb, hd, List.append_nil, List.append_nil] at hm
        have : m ∈ s.p.accepted.map (·.2) := List.mem_map.2 ⟨_, from_mem.1 hm, rfl⟩
        rw [i.fifo, hq, List.append_nil] at this
        exact this
      have hne : s.p.model.answers ≠ [] ∨ Out.quit ∈ outs c ((Input.messages chunks).take k) := by
        rcases hwant with hw | hw
        · left
          obtain ⟨b, hb'⟩ := List.exists_mem_of_ne_nil _ hw
          rw [← hans] at hb'
          obtain ⟨m, hm, hmb⟩ := List.mem_filterMap.1 hb'
          have hc := hcons m hm
          have hu : m.isUser = true := by
            cases m with
            | user => rfl
            | quit => cases hmb
            | batch => cases hmb
            | seq => cases hmb
          have hde : m ∈ s.p.delivered ++ s.p.loop.current := by
            rw [i.deliv]; exact List.mem_filter.2 ⟨hc, hu⟩
          rw [hl] at hde
          have hde : m ∈ s.p.delivered ++ [] := hde
          rw [List.append_nil] at hde
          intro e
          rw [m2] at e
          have := List.mem_filterMap.2 ⟨m, hde, hmb⟩
          rw [e] at this; cases this
        · exact .inr hw
      have := i.quit (hcons _ (hquit.2 hne))
      rw [hl] at this; cases this

end

end Phoenix.Dialog
