import Verif.Tea.TypingModel
/-
C188: from the keyboard to Update.
-/
set_option linter.unusedVariables false
set_option linter.unusedSimpArgs false
namespace Phoenix.Input

/-! ### Every Read consumes a byte -/

def St.size (s : St) : Nat := s.buf.length + s.more.flatten.length

theorem readByte_size (more : List (List Nat)) : ∀ (buf : List Nat) (b : Nat) (s : St), readByte buf more = some (b, s) →
    s.size + 1 = buf.length + more.flatten.length := by
  induction more with
  | nil =>
    intro buf b s h
    cases buf with
    | nil => simp [readByte] at h
    | cons x t => simp only [readByte, Option.some.injEq, Prod.mk.injEq] at h; rw [← h.2]; simp [St.size]
  | cons c more ih =>
    intro buf b s h
    cases buf with
    | nil =>
      rw [readByte] at h
      have := ih c b s h
      rw [this]; simp
    | cons x t => simp only [readByte, Option.some.injEq, Prod.mk.injEq] at h; rw [← h.2]; simp [St.size]; omega

theorem escTail_size (n : Nat) : ∀ buf : List Nat, (escTail n buf).2.length ≤ buf.length := by
  induction n with
  | zero => intro buf; exact Nat.le_refl _
  | succ n ih =>
    intro buf
    cases buf with
    | nil => exact Nat.le_refl _
    | cons b t =>
      rw [escTail]
      split
      · simp
      · have := ih t; simp only [List.length_cons]; omega

theorem fillRune_size (more : List (List Nat)) : ∀ buf, (fillRune buf more).size = buf.length + more.flatten.length := by
  induction more with
  | nil => intro buf; rfl
  | cons c more ih =>
    intro buf
    rw [fillRune]
    split
    · rfl
    · rw [ih]; simp; omega

theorem fillRune_ne (more : List (List Nat)) : ∀ buf, buf ≠ [] → (fillRune buf more).buf ≠ [] := by
  induction more with
  | nil => intro buf h; exact h
  | cons c more ih =>
    intro buf h
    rw [fillRune]
    split
    · exact h
    · exact ih _ (by simp [h])

theorem decodeRune_pos : ∀ l : List Nat, l ≠ [] → 1 ≤ (decodeRune l).2 := by
  intro l h
  cases l with
  | nil => exact absurd rfl h
  | cons b t =>
    unfold decodeRune
    repeat' split
    all_goals (first | contradiction | (show 1 ≤ _; simp))

theorem interpret_size (b : Nat) (seq : List Nat) (s : St) : (interpret b seq s).2.size ≤ s.size := by
  unfold interpret
  split
  · exact Nat.le_refl _
  · split
    · have h1 := fillRune_size s.more (b :: s.buf)
      have h2 := decodeRune_pos _ (fillRune_ne s.more (b :: s.buf) (by simp))
      have h3 := List.length_pos_iff.2 (fillRune_ne s.more (b :: s.buf) (by simp))
      simp only [St.size, List.length_drop, List.length_cons] at *
      omega
    · split <;> exact Nat.le_refl _

theorem read_size {s s' : St} {m : Option KeyMsg} (h : read s = some (m, s')) : s'.size < s.size := by
  unfold read at h
  cases hb : readByte s.buf s.more with
  | none => rw [hb] at h; cases h
  | some p =>
    obtain ⟨b, s1⟩ := p
    have h1 := readByte_size s.more s.buf b s1 hb
    rw [hb] at h
    simp only at h
    split at h
    · simp only [Option.some.injEq] at h
      have h2 := interpret_size b (27 :: (escTail 10 s1.buf).1) ⟨(escTail 10 s1.buf).2, s1.more⟩
      rw [h] at h2
      have h3 := escTail_size 10 s1.buf
      simp only [St.size] at *
      omega
    · simp only [Option.some.injEq] at h
      have h2 := interpret_size b [b] s1
      rw [h] at h2
      simp only [St.size] at *
      omega

theorem readN_enough : ∀ (n : Nat) (s : St), s.size < n → ∀ k, readN (n + k) s = readN n s := by
  intro n
  induction n with
  | zero => intro s h; omega
  | succ n ih =>
    intro s h k
    rw [Nat.add_right_comm, readN, readN]
    cases hr : read s with
    | none => rfl
    | some p =>
      obtain ⟨m, s'⟩ := p
      have := read_size hr
      simp only
      rw [ih s' (by omega)]

/-- The keys still to be read. -/
def keysLeft (s : St) : List KeyMsg := readN (s.size + 1) s

theorem keysLeft_none {s : St} (h : read s = none) : keysLeft s = [] := by
  unfold keysLeft; rw [readN, h]

theorem keysLeft_some {s s' : St} {m : Option KeyMsg} (h : read s = some (m, s')) :
    keysLeft s = m.toList ++ keysLeft s' := by
  have hs := read_size h
  unfold keysLeft
  rw [readN, h]
  simp only
  congr 1
  obtain ⟨k, hk⟩ := Nat.exists_eq_add_of_lt hs
  rw [show s.size = s'.size + 1 + k by omega]
  exact readN_enough _ _ (by omega) _

theorem keysLeft_start (chunks : List (List Nat)) : keysLeft ⟨[], chunks⟩ = messages chunks := by
  unfold keysLeft messages St.size
  simp

end Phoenix.Input

namespace Phoenix.Typing
open Phoenix.Program

variable {α σ : Type}

/-! ### Specification -/

/-- `zs` is made of the elements of `xs` and of `ys`, each in their own order. -/
inductive Merge {β : Type} : List β → List β → List β → Prop where
  | nil : Merge [] [] []
  | left (xs ys zs a) : Merge xs ys zs → Merge (xs ++ [a]) ys (zs ++ [a])
  | right (xs ys zs a) : Merge xs ys zs → Merge xs (ys ++ [a]) (zs ++ [a])

theorem Merge.filter {β : Type} (p : β → Bool) {xs ys zs : List β} (h : Merge xs ys zs) :
    Merge (xs.filter p) (ys.filter p) (zs.filter p) := by
  induction h with
  | nil => exact .nil
  | left xs ys zs a _ ih =>
    rw [List.filter_append, List.filter_append]
    by_cases ha : p a
    · simp only [List.filter_cons, ha, if_true, List.filter_nil]; exact .left _ _ _ _ ih
    · simp only [List.filter_cons, ha, List.filter_nil, List.append_nil, Bool.false_eq_true, if_false]; exact ih
  | right xs ys zs a _ ih =>
    rw [List.filter_append, List.filter_append]
    by_cases ha : p a
    · simp only [List.filter_cons, ha, if_true, List.filter_nil]; exact .right _ _ _ _ ih
    · simp only [List.filter_cons, ha, List.filter_nil, List.append_nil, Bool.false_eq_true, if_false]; exact ih

theorem Merge.rights {β : Type} {xs ys zs : List β} (h : Merge xs ys zs) (g : List β) : Merge xs (ys ++ g) (zs ++ g) := by
  induction g using Phoenix.snocInd with
  | nil => simpa using h
  | append_singleton g x ih => rw [← List.append_assoc, ← List.append_assoc]; exact .right _ _ _ _ ih

theorem Merge.perm {β : Type} {xs ys zs : List β} (h : Merge xs ys zs) : zs.Perm (xs ++ ys) := by
  induction h with
  | nil => exact .refl _
  | left xs ys zs a _ ih =>
    refine (ih.append_right [a]).trans ?_
    rw [List.append_assoc, List.append_assoc]
    exact List.Perm.append_left _ List.perm_append_comm
  | right xs ys zs a _ ih =>
    refine (ih.append_right [a]).trans ?_
    rw [List.append_assoc]

theorem Merge.sub {β : Type} {xs ys zs : List β} (h : Merge xs ys zs) : xs.Sublist zs := by
  induction h with
  | nil => exact .refl _
  | left xs ys zs a _ ih => exact ih.append (.refl _)
  | right xs ys zs a _ ih => exact ih.trans (List.sublist_append_left ..)

/-- The messages of all keys of an input. -/
def keyMsgs (key : KeyMsg → α) (ks : List KeyMsg) : List (Msg α) := ks.map fun k => .user (key k)

/-! ### The invariant -/

theorem grown_eq {p p' : Program.St α σ} {g : List (Src × Msg α)} (h : p'.accepted = p.accepted ++ g) :
    p'.accepted.map (·.2) = p.accepted.map (·.2) ++ grown p p' := by
  unfold grown
  rw [h, List.map_append, List.drop_left]

theorem step_grows {a : App α σ} {cap : Nat} {p p' : Program.St α σ} (h : Program.Step a cap p p') :
    ∃ g, p'.accepted = p.accepted ++ g := by
  cases h with
  | recv | update | pushed | result => exact ⟨[], (List.append_nil _).symm⟩
  | push | deliver => exact ⟨_, rfl⟩

theorem call_grows {cap : Nat} {p p' : Program.St α σ} (h : Call cap p p') :
    ∃ g, p'.accepted = p.accepted ++ g := by
  cases h with
  | send => exact ⟨_, rfl⟩
  | _ => exact ⟨[], (List.append_nil _).symm⟩

theorem inv_enqueue {a : App α σ} {cap : Nat} {s : Program.St α σ} (h : Inv a cap s) (m : Msg α)
    (hq : s.queue.length < cap) : Inv a cap (enqueue s .send m) := by
  refine ⟨?_, h.deliv, h.model, h.screen, ?_, ?_, h.quit, h.last, h.busy, ?_⟩
  · show (s.accepted ++ [(Src.send, m)]).map (·.2) = s.consumed ++ (s.queue ++ [m])
    rw [List.map_append, h.fifo]; simp
  · show from' .loop (s.accepted ++ [(Src.send, m)]) ++ s.loop.rest = _
    rw [from_append, if_neg (by decide), List.append_nil]
    exact h.unpacked
  · show s.results.Perm (from' .cmd (s.accepted ++ [(Src.send, m)]) ++ (s.blocked ++ s.dropped))
    rw [from_append, if_neg (by decide), List.append_nil]
    exact h.results
  · show (s.queue ++ [m]).length ≤ cap
    rw [List.length_append, List.length_singleton]; omega

structure TInv (a : App α σ) (cap : Nat) (key : KeyMsg → α) (chunks : List (List Nat)) (s : St α σ) : Prop where
  prog : Inv a cap s.p
  merge : Merge s.typed s.others (s.p.accepted.map (·.2))
  pre : s.typed <+: keyMsgs key (Input.messages chunks)
  flow : s.stolen = 0 → s.cancelled = false →
    s.typed ++ s.hand.toList.map Msg.user ++ keyMsgs key (Input.keysLeft s.rd) = keyMsgs key (Input.messages chunks)
  live : s.ended = false → s.stolen = 0 ∧ s.cancelled = false
  drained : s.ended = true → s.stolen = 0 → s.cancelled = false → s.hand = none ∧ Input.read s.rd = none

theorem tinv {a : App α σ} {cap : Nat} {key : KeyMsg → α} {chunks : List (List Nat)} {s : St α σ}
    (h : Reach a cap key chunks s) : TInv a cap key chunks s := by
  induction h with
  | start =>
    refine ⟨inv_start a cap, .nil, ⟨_, rfl⟩, fun _ _ => ?_, fun _ => ⟨rfl, rfl⟩, fun h => (by cases h)⟩
    show keyMsgs key (Input.keysLeft ⟨[], chunks⟩) = _
    rw [Input.keysLeft_start]
  | step s s' _ st ih =>
    cases st with
    | prog p' hst =>
      obtain ⟨g, hg⟩ := step_grows hst
      refine ⟨inv_step ih.prog hst, ?_, ih.pre, ih.flow, ih.live, ih.drained⟩
      show Merge _ _ (p'.accepted.map _)
      rw [grown_eq hg]
      exact ih.merge.rights _
    | call p' hc =>
      obtain ⟨g, hg⟩ := call_grows hc
      refine ⟨inv_call ih.prog hc, ?_, ih.pre, ih.flow, ih.live, ih.drained⟩
      show Merge _ _ (p'.accepted.map _)
      rw [grown_eq hg]
      exact ih.merge.rights _
    | read m rd' he hh hr =>
      refine ⟨ih.prog, ih.merge, ih.pre, fun h1 h2 => ?_, ih.live, fun h => (by rw [he] at h; cases h)⟩
      have := ih.flow h1 h2
      rw [hh, Input.keysLeft_some hr] at this
      rw [← this]
      show s.typed ++ (m.map key).toList.map Msg.user ++ keyMsgs key (Input.keysLeft rd') = _
      cases m <;> simp [keyMsgs]
    | eof he hh hr =>
      exact ⟨ih.prog, ih.merge, ih.pre, ih.flow, fun h => (by cases h), fun _ _ _ => ⟨hh, hr⟩⟩
    | put m he hh hq =>
      obtain ⟨h1, h2⟩ := ih.live he
      have hf := ih.flow h1 h2
      rw [hh] at hf
      have hf' : s.typed ++ [Msg.user m] ++ keyMsgs key (Input.keysLeft s.rd) = keyMsgs key (Input.messages chunks) := hf
      refine ⟨inv_enqueue ih.prog _ hq, ?_, ⟨_, hf'⟩, fun _ _ => ?_, ih.live, fun h => (by rw [he] at h; cases h)⟩
      · show Merge (s.typed ++ [Msg.user m]) s.others ((s.p.accepted ++ [(Src.send, Msg.user m)]).map (fun x : Src × Msg α => x.2))
        rw [List.map_append]
        exact .left _ _ _ _ ih.merge
      · show s.typed ++ [.user m] ++ [] ++ _ = _
        rw [List.append_nil]; exact hf'
    | steal m he hh hq =>
      have p := ih.prog
      refine ⟨⟨p.fifo, p.deliv, p.model, p.screen, p.unpacked, p.results, p.quit, p.last, p.busy, p.room⟩, ih.merge, ih.pre,
        fun h1 => ?_, fun h => (by cases h), fun _ h1 => ?_⟩
      · exact absurd h1 (Nat.succ_ne_zero _)
      · exact absurd h1 (Nat.succ_ne_zero _)
    | cancel he =>
      exact ⟨ih.prog, ih.merge, ih.pre, fun _ h => (by cases h), fun h => (by cases h), fun _ _ h => (by cases h)⟩

/-! ## C188: typed keys reach Update -/

/-- C188, full claim: while the program runs and its input is not cancelled, no key is lost: those in the queue (or
already taken from it), the one in the hand of the input goroutine and those still to be read are all keys there are. -/
def C188_statement (cap : Nat) : Prop :=
  ∀ (a : App KeyMsg Nat) (chunks : List (List Nat)) (s : St KeyMsg Nat),
    Reach a cap id chunks s → s.cancelled = false → (∀ h : s.p.loop = .done, False) →
    s.typed ++ s.hand.toList.map Msg.user ++ keyMsgs id (Input.keysLeft s.rd) = keyMsgs id (Input.messages chunks)

/-- C188.  In every execution: what the input goroutine has put into the queue are the first keys of the input, in
order; the queue has taken these and the messages of others, each in their own order and nothing else; what it has
taken is what the loop has consumed followed by what it holds; and Update has been called with exactly the ordinary
messages consumed, in order. -/
theorem C188_in_order_partial {a : App α σ} {cap : Nat} {key : KeyMsg → α} {chunks : List (List Nat)} {s : St α σ}
    (h : Reach a cap key chunks s) :
    s.typed <+: keyMsgs key (Input.messages chunks) ∧
    Merge s.typed s.others (s.p.accepted.map (·.2)) ∧
    s.p.accepted.map (·.2) = s.p.consumed ++ s.p.queue ∧
    s.p.delivered ++ s.p.loop.current = s.p.consumed.filter Msg.isUser ∧
    s.p.model = s.p.delivered.foldl (fun m x => (a.update m x).1) a.init :=
  let i := tinv h
  ⟨i.pre, i.merge, i.prog.fifo, i.prog.deliv, i.prog.model⟩

/-- C188.  As long as no Quit signal is taken by the input goroutine and it is not cancelled, no key is lost. -/
theorem C188_none_lost_partial {a : App α σ} {cap : Nat} {key : KeyMsg → α} {chunks : List (List Nat)} {s : St α σ}
    (h : Reach a cap key chunks s) (h1 : s.stolen = 0) (h2 : s.cancelled = false) :
    s.typed ++ s.hand.toList.map Msg.user ++ keyMsgs key (Input.keysLeft s.rd) = keyMsgs key (Input.messages chunks) :=
  (tinv h).flow h1 h2

/-- C188, keyboard to Update: keys (all but F1-F4), their bytes split into chunks anywhere outside escape sequences.
When the input is read and the loop is idle, Update has been called with exactly the keys typed, in order, and the
ordinary messages of others, in theirs. -/
theorem C188_keys_partial {a : App α σ} {cap : Nat} {key : KeyMsg → α} (ks : List Input.Key)
    (hs : ∀ k ∈ ks, k.Supported) (chunks : List (List Input.Piece))
    (hc : chunks.flatten = ks.flatMap Input.Key.pieces) (he : ∀ x ∈ chunks, Input.EscLast x) {s : St α σ}
    (h : Reach a cap key (chunks.map Input.bytesOf) s) (h1 : s.stolen = 0) (h2 : s.cancelled = false)
    (hidle : s.p.loop = .select) (hq : s.p.queue = []) (hend : s.ended = true) :
    Merge (ks.map fun k => .user (key k.msg)) (s.others.filter Msg.isUser) s.p.delivered ∧
    s.p.model = s.p.delivered.foldl (fun m x => (a.update m x).1) a.init := by
  have i := tinv h
  refine ⟨?_, i.prog.model⟩
  have hf := i.flow h1 h2
  obtain ⟨d1, d2⟩ := i.drained hend h1 h2
  rw [d1, Input.keysLeft_none d2, Input.C25_partial ks hs chunks hc he] at hf
  have ht : s.typed = ks.map fun k => .user (key k.msg) := by
    have : s.typed ++ [] ++ [] = keyMsgs key (ks.map Input.Key.msg) := hf
    rw [List.append_nil, List.append_nil] at this
    rw [this, keyMsgs, List.map_map]; rfl
  have hm := i.merge.filter Msg.isUser
  have hfl : s.typed.filter Msg.isUser = s.typed := by
    rw [ht]
    apply List.filter_eq_self.2
    intro x hx
    obtain ⟨k, _, rfl⟩ := List.mem_map.1 hx
    rfl
  have hd := i.prog.deliv
  rw [hidle] at hd
  have hd' : s.p.delivered = s.p.consumed.filter Msg.isUser := by
    rw [← hd]; exact (List.append_nil _).symm
  rw [hfl, i.prog.fifo, hq, List.append_nil, ← hd', ht] at hm
  exact hm

/-- A Quit signal is taken by the input goroutine only while the queue is full: a program whose queue never fills up
loses no key.  `roomy` is "the queue was not full at any moment of the execution". -/
inductive Roomy (a : App α σ) (cap : Nat) (key : KeyMsg → α) (chunks : List (List Nat)) : St α σ → Prop where
  | start : Roomy a cap key chunks (start a chunks)
  | step (s s') : Roomy a cap key chunks s → s.p.queue.length < cap → Step a cap key s s' → Roomy a cap key chunks s'

theorem C188_roomy_partial {a : App α σ} {cap : Nat} {key : KeyMsg → α} {chunks : List (List Nat)} {s : St α σ}
    (h : Roomy a cap key chunks s) (h2 : s.cancelled = false) :
    s.typed ++ s.hand.toList.map Msg.user ++ keyMsgs key (Input.keysLeft s.rd) = keyMsgs key (Input.messages chunks) := by
  have : Reach a cap key chunks s ∧ s.stolen = 0 := by
    clear h2
    induction h with
    | start => exact ⟨.start, rfl⟩
    | step s s' _ hr st ih =>
      refine ⟨.step _ _ ih.1 st, ?_⟩
      cases st with
      | steal m _ _ hq => exact absurd hr hq
      | _ => exact ih.2
  exact C188_none_lost_partial this.1 this.2 h2

/-- C188: once the input goroutine has ended, no key reaches the queue any more, whatever happens. -/
inductive Later (a : App α σ) (cap : Nat) (key : KeyMsg → α) : St α σ → St α σ → Prop where
  | refl (s) : Later a cap key s s
  | step (s t u) : Later a cap key s t → Step a cap key t u → Later a cap key s u

theorem C188_deaf_partial {a : App α σ} {cap : Nat} {key : KeyMsg → α} {s t : St α σ} (h : Later a cap key s t)
    (he : s.ended = true) : t.ended = true ∧ t.typed = s.typed := by
  induction h with
  | refl => exact ⟨he, rfl⟩
  | step t u _ st ih =>
    obtain ⟨i1, i2⟩ := ih
    cases st with
    | prog | call => exact ⟨i1, i2⟩
    | read _ _ e | eof e | put _ e | steal _ e | cancel e => rw [i1] at e; cases e

/-! ### A concrete program -/

/-- Counts the keys. -/
def demoApp : App KeyMsg Nat := { init := 0, initCmd := none, update := fun m _ => (m + 1, none) }

/-- The key `a`. -/
def keyA : KeyMsg := { type := .rune, rune := 'a' }

/-- C188 is false: a Quit while the queue is full is taken by the input goroutine, which drops its key and ends; the
program runs on, deaf. -/
theorem C188_stolen_refuted (cap : Nat) (hcap : 0 < cap) : ¬ C188_statement cap := by
  intro H
  let chunks : List (List Nat) := [[97], [97]]
  have r0 : Reach demoApp cap id chunks (start demoApp chunks) := .start
  have r1 := Reach.step _ _ r0 (.call _ _ (.send _ (.user keyA) hcap))
  have r2 := Reach.step _ _ r1 (.prog _ _ (.recv _ (.user keyA) [] rfl rfl))
  have r3 := Reach.step _ _ r2 (.read _ (some keyA) ⟨[], [[97]]⟩ rfl rfl rfl)
  have fill : ∀ n, n ≤ cap → ∃ s : St KeyMsg Nat, Reach demoApp cap id chunks s ∧ s.p.queue.length = n ∧
      (∀ h : s.p.loop = .done, False) ∧ s.ended = false ∧ s.hand = some keyA ∧ s.cancelled = false ∧ s.typed = [] ∧
      s.rd = ⟨[], [[97]]⟩ := by
    intro n
    induction n with
    | zero => exact fun _ => ⟨_, r3, rfl, (fun h => by cases h), rfl, rfl, rfl, rfl, rfl⟩
    | succ n ih =>
      intro hn
      obtain ⟨s, hr, hq, hl, he, hh, hc, ht, hd⟩ := ih (by omega)
      refine ⟨_, Reach.step _ _ hr (.call _ _ (.send _ (.user keyA) (by omega))), ?_, hl, he, hh,
        hc, ht, hd⟩
      show (s.p.queue ++ [_]).length = _
      rw [List.length_append, hq]
      rfl
  obtain ⟨s, hr, hq, hl, he, hh, hc, ht, hd⟩ := fill cap (Nat.le_refl _)
  have r5 := Reach.step _ _ hr (.steal _ keyA he hh (by omega))
  have := H demoApp chunks _ r5 hc hl
  have := congrArg List.length this
  simp only [ht, hd] at this
  revert this
  decide

/-- The hypotheses of C188_keys_partial: "a", ↑ and "b" typed while another message is sent. -/
example : ∃ s : St KeyMsg Nat, Reach demoApp 100 id [[97], [27, 91, 65, 98]] s ∧ s.stolen = 0 ∧ s.cancelled = false ∧
    s.p.loop = .select ∧ s.p.queue = [] ∧ s.ended = true ∧ s.p.model = 4 := by
  let chunks : List (List Nat) := [[97], [27, 91, 65, 98]]
  have r : Reach demoApp 100 id chunks (start demoApp chunks) := .start
  have r := Reach.step _ _ r (.read _ (some keyA) ⟨[], [[27, 91, 65, 98]]⟩ rfl rfl rfl)
  have r := Reach.step _ _ r (.call _ _ (.send _ (.user { type := .tab }) (by decide)))
  have r := Reach.step _ _ r (.put _ keyA rfl rfl (by decide))
  have r := Reach.step _ _ r (.prog _ _ (.recv _ _ _ rfl rfl))
  have r := Reach.step _ _ r (.read _ (some { type := .up }) ⟨[98], []⟩ rfl rfl rfl)
  have r := Reach.step _ _ r (.prog _ _ (.update _ _ rfl))
  have r := Reach.step _ _ r (.put _ { type := .up } rfl rfl (by decide))
  have r := Reach.step _ _ r (.read _ (some { type := .rune, rune := 'b' }) ⟨[], []⟩ rfl rfl rfl)
  have r := Reach.step _ _ r (.put _ { type := .rune, rune := 'b' } rfl rfl (by decide))
  have r := Reach.step _ _ r (.eof _ rfl rfl rfl)
  have r := Reach.step _ _ r (.prog _ _ (.recv _ _ _ rfl rfl))
  have r := Reach.step _ _ r (.prog _ _ (.update _ _ rfl))
  have r := Reach.step _ _ r (.prog _ _ (.recv _ _ _ rfl rfl))
  have r := Reach.step _ _ r (.prog _ _ (.update _ _ rfl))
  have r := Reach.step _ _ r (.prog _ _ (.recv _ _ _ rfl rfl))
  have r := Reach.step _ _ r (.prog _ _ (.update _ _ rfl))
  exact ⟨_, r, rfl, rfl, rfl, rfl, rfl, rfl⟩

end Phoenix.Typing
