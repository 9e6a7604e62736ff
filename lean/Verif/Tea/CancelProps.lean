import Verif.Tea.CancelModel
/-
C26: the cancelable reader loses no input.
-/
set_option linter.unusedVariables false
set_option linter.unusedSimpArgs false
namespace Phoenix.Cancel

/-- C26: for every stream and every schedule, the bytes returned are a prefix of the stream,
and all of it once the end has been reported without a Cancel. -/
def C26_statement : Prop :=
  ∀ (source : List Nat) (s : St), Reach 0 source s →
    (∃ tl, source = s.out ++ tl) ∧ (s.eofNoCancel = true → s.out = source)

/-- C26 is false for Reads with a small buffer: the rest of a chunk is dropped. -/
theorem C26_refuted : ¬ C26_statement := by
  intro h
  have r0 : Reach 0 [1, 2, 3] (init [1, 2, 3]) := .init
  have r1 := Reach.step _ _ r0 (.relayRead _ [1, 2] [3] false rfl rfl rfl rfl (by decide) (by decide) (by decide)) (by intro p hp; cases hp)
  have r2 := Reach.step _ _ r1 (.relayWrite _ [1, 2] [] rfl rfl rfl (by decide)) (by intro p hp; cases hp)
  have r3 := Reach.step _ _ r2 (.loopRead _ [1, 2] [] rfl rfl rfl (by decide) (by decide)) (by intro p hp; cases hp)
  have r4 := Reach.step _ _ r3 (.loopSend _ ⟨[1, 2], false⟩ rfl rfl rfl) (by intro p hp; cases hp)
  have r5 := Reach.step _ _ r4 (.readStart _ 1 rfl rfl) (by intro p hp; exact Nat.zero_le _)
  have r6 := Reach.step _ _ r5 (.readResult _ ⟨[1, 2], false⟩ 1 rfl rfl) (by intro p hp; cases hp)
  have r7 := Reach.step _ _ r6 (.relayRead _ [3] [] false rfl rfl rfl rfl (by decide) (by decide) (by decide)) (by intro p hp; cases hp)
  have r8 := Reach.step _ _ r7 (.relayWrite _ [3] [] rfl rfl rfl (by decide)) (by intro p hp; cases hp)
  have r9 := Reach.step _ _ r8 (.loopRead _ [3] [] rfl rfl rfl (by decide) (by decide)) (by intro p hp; cases hp)
  have r10 := Reach.step _ _ r9 (.loopSend _ ⟨[3], false⟩ rfl rfl rfl) (by intro p hp; cases hp)
  have r11 := Reach.step _ _ r10 (.readStart _ 1 rfl rfl) (by intro p hp; exact Nat.zero_le _)
  have r12 := Reach.step _ _ r11 (.readResult _ ⟨[3], false⟩ 1 rfl rfl) (by intro p hp; cases hp)
  obtain ⟨⟨tl, ht⟩, _⟩ := h _ _ r12
  have : [1, 2, 3] = [1, 3] ++ tl := ht
  simp at this

/-- Bytes of a possible result. -/
def dat (r : Option Res) : List Nat := Res.bytes r

structure Inv (source : List Nat) (s : St) : Prop where
  /-- returned and waiting bytes are a prefix of the stream -/
  pre : ∃ tl, source = s.out ++ dat s.ch ++ tl
  /-- while the loop lives, so are the bytes it holds and those in the pipe; what is missing
  is what the relay has not written (unless it lost it after Cancel) -/
  live : s.loopAlive = true → ∃ tl, source = s.out ++ dat s.ch ++ dat s.held ++ s.pipe ++ tl ∧
    (s.relayAlive = true ∨ s.canceled = false → tl = s.rbuf ++ s.src)
  closed : s.canceled = false → s.wclosed = true → s.relayAlive = false
  opened : s.relayAlive = false → s.wclosed = true
  dead : s.canceled = false → s.relayAlive = false → s.rbuf = [] ∧ s.src = []
  held : ∀ r, s.held = some r → r.data.length ≤ 256 ∧ (r.err = true → r.data = [] ∧ s.pipe = [] ∧ s.wclosed = true)
  ch : ∀ r, s.ch = some r → r.data.length ≤ 256 ∧ (r.err = true → r.data = [] ∧ s.loopAlive = false)
  fin : s.canceled = false → s.loopAlive = false → source = s.out ∧
    ((∃ r, s.ch = some r ∧ r.err = true) ∨ s.eofNoCancel = true)
  done : s.eofNoCancel = true → s.out = source
  relayE : s.relayEof = true → s.src = []
  buf : ∀ p, s.reading = some p → 256 ≤ p

theorem inv_init (source : List Nat) : Inv source (init source) := by
  refine ⟨⟨source, rfl⟩, fun _ => ⟨source, rfl, fun _ => rfl⟩, ?_, ?_, ?_, ?_, ?_, ?_, ?_, ?_, ?_⟩ <;> simp [init]

theorem inv_step {source : List Nat} {s s' : St} (i : Inv source s) (st : Step s s')
    (hp : ∀ p, s'.reading = some p → 256 ≤ p) : Inv source s' := by
  obtain ⟨h1, h2, h3, h4, h5, h6, h7, h8, h9, h10, h11⟩ := i
  cases st with
  | relayRead a b e k1 k2 k3 k4 k5 k6 k7 =>
    refine ⟨h1, ?_, h3, h4, ?_, h6, h7, h8, h9, k7, h11⟩
    · intro hl
      obtain ⟨tl, e1, e2⟩ := h2 hl
      refine ⟨tl, e1, fun _ => ?_⟩
      rw [e2 (Or.inl k1), k2, k4]; rfl
    · intro hc hr; simp only at hr; rw [k1] at hr; cases hr
  | relayEof k1 k2 k3 k4 =>
    exact ⟨h1, h2, h3, h4, h5, h6, h7, h8, h9, fun _ => k4, h11⟩
  | relayWrite a b k1 k2 k3 k4 =>
    refine ⟨h1, ?_, h3, h4, ?_, ?_, h7, h8, h9, h10, h11⟩
    · intro hl
      obtain ⟨tl, e1, e2⟩ := h2 hl
      refine ⟨b ++ s.src, ?_, fun _ => rfl⟩
      rw [e1, e2 (Or.inl k1), k3]
      simp
    · intro hc hr; simp only at hr; rw [k1] at hr; cases hr
    · intro r hr
      refine ⟨(h6 r hr).1, ?_⟩
      intro he
      have := ((h6 r hr).2 he).2.2
      rw [k2] at this; cases this
  | relayLost k1 k2 k3 =>
    have hcan : s.canceled = true := by
      cases hc : s.canceled with
      | true => rfl
      | false => have := h3 hc k2; rw [k1] at this; cases this
    refine ⟨h1, ?_, fun _ _ => rfl, fun _ => k2, ?_, h6, h7, h8, h9, h10, h11⟩
    · intro hl
      obtain ⟨tl, e1, e2⟩ := h2 hl
      refine ⟨tl, e1, ?_⟩
      intro h
      rcases h with h | h
      · cases h
      · simp only at h; rw [hcan] at h; cases h
    · intro hc; simp only at hc; rw [hcan] at hc; cases hc
  | relayEnd k1 k2 k3 =>
    refine ⟨h1, ?_, fun _ _ => rfl, fun _ => rfl, fun _ _ => ⟨k2, h10 k3⟩, ?_, h7, h8, h9, h10, h11⟩
    · intro hl
      obtain ⟨tl, e1, e2⟩ := h2 hl
      exact ⟨tl, e1, fun _ => e2 (Or.inl k1)⟩
    · intro r hr; exact ⟨(h6 r hr).1, fun he => ⟨((h6 r hr).2 he).1, ((h6 r hr).2 he).2.1, rfl⟩⟩
  | relayCancel k1 k2 k3 =>
    refine ⟨h1, ?_, fun _ _ => rfl, fun _ => rfl, ?_, ?_, h7, h8, h9, h10, h11⟩
    · intro hl
      obtain ⟨tl, e1, e2⟩ := h2 hl
      exact ⟨tl, e1, fun _ => e2 (Or.inl k1)⟩
    · intro hc; simp only at hc; rw [k3] at hc; cases hc
    · intro r hr; exact ⟨(h6 r hr).1, fun he => ⟨((h6 r hr).2 he).1, ((h6 r hr).2 he).2.1, rfl⟩⟩
  | loopRead a b k1 k2 k3 k4 k5 =>
    refine ⟨h1, ?_, h3, h4, h5, ?_, h7, ?_, h9, h10, h11⟩
    · intro hl
      obtain ⟨tl, e1, e2⟩ := h2 k1
      refine ⟨tl, ?_, e2⟩
      rw [e1, k2, k3]
      simp [dat, Res.bytes]
    · intro r hr
      simp only [Option.some.injEq] at hr
      subst hr
      exact ⟨k5, fun h => by cases h⟩
    · intro _ hl; simp only at hl; rw [k1] at hl; cases hl
  | loopEof k1 k2 k3 k4 =>
    refine ⟨h1, ?_, h3, h4, h5, ?_, h7, ?_, h9, h10, h11⟩
    · intro hl
      obtain ⟨tl, e1, e2⟩ := h2 k1
      refine ⟨tl, ?_, e2⟩
      rw [e1, k2]
      simp [dat, Res.bytes]
    · intro r hr
      simp only [Option.some.injEq] at hr
      subst hr
      exact ⟨by simp, fun _ => ⟨rfl, k3, k4⟩⟩
    · intro _ hl; simp only at hl; rw [k1] at hl; cases hl
  | loopSend r k1 k2 k3 =>
    obtain ⟨tl, e1, e2⟩ := h2 k1
    rw [k2, k3] at e1
    have hr := h6 r k2
    refine ⟨?_, ?_, h3, h4, h5, ?_, ?_, ?_, h9, h10, h11⟩
    · refine ⟨s.pipe ++ tl, ?_⟩
      rw [e1]; simp [dat, Res.bytes]
    · intro _
      refine ⟨tl, ?_, e2⟩
      rw [e1]; simp [dat, Res.bytes]
    · intro r' h; cases h
    · intro r' h
      simp only [Option.some.injEq] at h
      subst h
      exact ⟨hr.1, fun he => ⟨(hr.2 he).1, by simp [he]⟩⟩
    · intro hc hl
      simp only [Bool.not_eq_false'] at hl
      obtain ⟨d1, d2, d3⟩ := hr.2 hl
      have hd := h5 hc (h3 hc d3)
      refine ⟨?_, Or.inl ⟨r, rfl, hl⟩⟩
      rw [e1, e2 (Or.inr hc), hd.1, hd.2, d2]
      simp [dat, Res.bytes, d1]
  | loopCancel k1 k2 =>
    refine ⟨h1, ?_, h3, h4, h5, ?_, ?_, ?_, h9, h10, h11⟩
    · intro h; cases h
    · intro r h; cases h
    · intro r hr; exact ⟨(h7 r hr).1, fun he => ⟨((h7 r hr).2 he).1, rfl⟩⟩
    · intro hc; simp only at hc; rw [k2] at hc; cases hc
  | readStart p k1 k2 => exact ⟨h1, h2, h3, h4, h5, h6, h7, h8, h9, h10, hp⟩
  | readCanceled p k1 k2 => exact ⟨h1, h2, h3, h4, h5, h6, h7, h8, h9, h10, h11⟩
  | readResult r p k1 k2 =>
    have hr := h7 r k2
    have ht : r.data.take p = r.data := by
      apply List.take_of_length_le
      have := h11 p k1
      omega
    rw [k2] at h1 h2
    have hout : s.eofNoCancel = true → r.data = [] := by
      intro he
      obtain ⟨tl, e1⟩ := h1
      have := h9 he
      rw [this] at e1
      have := congrArg List.length e1
      simp only [dat, Res.bytes, Option.map_some, Option.getD_some, List.length_append] at this
      apply List.eq_nil_of_length_eq_zero
      omega
    refine ⟨?_, ?_, h3, h4, h5, h6, ?_, ?_, ?_, h10, ?_⟩
    · obtain ⟨tl, e1⟩ := h1
      refine ⟨tl, ?_⟩
      simp only [ht]
      rw [e1]; simp [dat, Res.bytes]
    · intro hl
      obtain ⟨tl, e1, e2⟩ := h2 hl
      refine ⟨tl, ?_, e2⟩
      simp only [ht]
      rw [e1]; simp [dat, Res.bytes]
    · intro r' h; cases h
    · intro hc hl
      obtain ⟨f1, f2⟩ := h8 hc hl
      simp only at hc
      rcases f2 with ⟨r', f3, f4⟩ | f2
      · rw [k2, Option.some.injEq] at f3
        subst f3
        refine ⟨?_, Or.inr ?_⟩
        · simp only [ht, (hr.2 f4).1, List.take_nil, List.append_nil]; exact f1
        · simp [f4, hc]
      · refine ⟨?_, Or.inr ?_⟩
        · simp only [ht, hout f2, List.take_nil, List.append_nil]; exact f1
        · simp [f2]
    · intro he
      simp only [Bool.or_eq_true, Bool.and_eq_true, Bool.not_eq_true'] at he
      rcases he with he | ⟨he, hc⟩
      · simp only [ht, hout he, List.take_nil, List.append_nil]; exact h9 he
      · have := (hr.2 he)
        simp only [ht, this.1, List.take_nil, List.append_nil]
        exact (h8 hc this.2).1.symm
    · intro p' h; cases h
  | readDone p k1 k2 =>
    exact ⟨h1, h2, h3, h4, h5, h6, h7, h8, h9, h10, fun p h => by cases h⟩
  | cancel =>
    refine ⟨h1, ?_, ?_, ?_, ?_, ?_, h7, ?_, h9, h10, h11⟩
    · intro hl
      obtain ⟨tl, e1, e2⟩ := h2 hl
      refine ⟨tl, e1, ?_⟩
      intro h
      rcases h with h | h
      · exact e2 (Or.inl h)
      · cases h
    · intro h; cases h
    · intro _; rfl
    · intro h; cases h
    · intro r hr; exact ⟨(h6 r hr).1, fun he => ⟨((h6 r hr).2 he).1, ((h6 r hr).2 he).2.1, rfl⟩⟩
    · intro h; cases h

theorem inv_reach {source : List Nat} {s : St} (h : Reach 256 source s) : Inv source s := by
  induction h with
  | init => exact inv_init source
  | step s s' _ st hp ih => exact inv_step ih st hp

/-- C26, for Read buffers of at least 256 bytes (the program's bufio.Reader uses 4096): for
every stream and schedule the bytes returned are a prefix of the stream, and all of it once
a Read has reported the end without a Cancel. -/
theorem C26_prefix_partial {source : List Nat} {s : St} (h : Reach 256 source s) :
    (∃ tl, source = s.out ++ tl) ∧ (s.eofNoCancel = true → s.out = source) := by
  have i := inv_reach h
  refine ⟨?_, i.done⟩
  obtain ⟨tl, e⟩ := i.pre
  exact ⟨dat s.ch ++ tl, by rw [e]; simp⟩

/-- Steps other than Cancel and the start of a Read: what the goroutines and a pending Read
do by themselves. -/
def Internal (s s' : St) : Prop := Step s s' ∧ s'.canceled = s.canceled ∧ (s'.reading = s.reading ∨ s'.reading = none)

/-- C26.  A pending Read is never stuck: unless the stream has ended and its end has been
reported, or Cancel was called, some step of the reader is possible. -/
theorem C26_no_deadlock {source : List Nat} {s : St} (h : Reach 256 source s) (p : Nat)
    (hr : s.reading = some p) (hc : s.canceled = false) (he : s.eofNoCancel = false) :
    ∃ s', Internal s s' := by
  have i := inv_reach h
  cases hch : s.ch with
  | some r => exact ⟨_, .readResult s r p hr hch, rfl, Or.inr rfl⟩
  | none =>
    cases hl : s.loopAlive with
    | false =>
      obtain ⟨_, f⟩ := i.fin hc hl
      rcases f with ⟨r, f, _⟩ | f
      · rw [hch] at f; cases f
      · rw [he] at f; cases f
    | true =>
      cases hh : s.held with
      | some r => exact ⟨_, .loopSend s r hl hh hch, rfl, Or.inl rfl⟩
      | none =>
        cases hpi : s.pipe with
        | cons b t => exact ⟨_, .loopRead s [b] t hl hh hpi (by simp) (by simp), rfl, Or.inl rfl⟩
        | nil =>
          cases hw : s.wclosed with
          | true => exact ⟨_, .loopEof s hl hh hpi hw, rfl, Or.inl rfl⟩
          | false =>
            have ha : s.relayAlive = true := by
              cases ha : s.relayAlive with
              | true => rfl
              | false => have := i.opened ha; rw [hw] at this; cases this
            cases hb : s.rbuf with
            | cons b t => exact ⟨_, .relayWrite s [b] t ha hw hb (by simp), rfl, Or.inl rfl⟩
            | nil =>
              cases hE : s.relayEof with
              | true => exact ⟨_, .relayEnd s ha hb hE, rfl, Or.inl rfl⟩
              | false =>
                cases hs : s.src with
                | nil => exact ⟨_, .relayEof s ha hb hE hs, rfl, Or.inl rfl⟩
                | cons b t =>
                  exact ⟨_, .relayRead s [b] t false ha hb hE hs (by simp) (by simp) (by intro h; cases h), rfl, Or.inl rfl⟩
-- a Read that waits for the first byte
example := C26_no_deadlock (source := [97, 98]) (Reach.step _ _ .init (.readStart _ 4096 rfl rfl) (by intro p hp; cases hp; decide))
  4096 rfl rfl rfl


/-- Several steps. -/
inductive Steps : St → St → Prop where
  | refl (s) : Steps s s
  | step (s t u) : Step s t → Steps t u → Steps s u

/-- C26.  After Cancel no further byte is returned: once Cancel has been called and no Read
is pending, the returned bytes never change, whatever happens. -/
theorem C26_after_cancel {s t : St} (h : Steps s t) (hc : s.canceled = true) (hr : s.reading = none) :
    t.out = s.out ∧ t.canceled = true ∧ t.reading = none := by
  induction h with
  | refl => exact ⟨rfl, hc, hr⟩
  | step s t u st _ ih =>
    have key : t.out = s.out ∧ t.canceled = true ∧ t.reading = none := by
      cases st with
      | readStart p k1 k2 => rw [hc] at k2; cases k2
      | readResult r p k1 k2 => rw [hr] at k1; cases k1
      | readDone p k1 k2 => rw [hr] at k1; cases k1
      | cancel => exact ⟨rfl, rfl, hr⟩
      | _ => exact ⟨rfl, hc, hr⟩
    have := ih key.2.1 key.2.2
    exact ⟨this.1.trans key.1, this.2⟩
-- a Read after Cancel
example : ∃ s t : St, Steps s t ∧ s.canceled = true ∧ s.reading = none ∧ t.eof = true :=
  ⟨{ init [97, 98] with canceled := true }, _, .step _ _ _ (.readCanceled _ 10 rfl rfl) (.refl _), rfl, rfl, rfl⟩


/-- C26.  A pending Read can always return once Cancel has been called. -/
theorem C26_cancel_unblocks (s : St) (p : Nat) (hr : s.reading = some p) (hc : s.canceled = true) :
    ∃ s', Step s s' ∧ s'.reading = none ∧ s'.out = s.out ∧ s'.eof = true :=
  ⟨_, .readDone s p hr hc, rfl, rfl, rfl⟩
example := C26_cancel_unblocks { init [97, 98] with canceled := true, reading := some 10 } 10 rfl rfl


/-- C26, repeated end of stream: a Read after the end has been reported must return, too
(the convention of io.Reader). -/
def C26_eof_again_statement : Prop :=
  ∀ (source : List Nat) (s : St), Reach 256 source s → ∀ p, s.reading = some p → s.canceled = false →
    ∃ s', Internal s s'

/-- C26 (repeated end of stream) is false: the end is reported once, a further Read blocks
until Cancel. -/
theorem C26_eof_again_refuted : ¬ C26_eof_again_statement := by
  intro h
  have n : ∀ (s : St), s.reading = none → ∀ p, s.reading = some p → 256 ≤ p := by
    intro s h p hp; rw [h] at hp; cases hp
  have r0 : Reach 256 [] (init []) := .init
  have r1 := Reach.step _ _ r0 (.relayEof _ rfl rfl rfl rfl) (n _ rfl)
  have r2 := Reach.step _ _ r1 (.relayEnd _ rfl rfl rfl) (n _ rfl)
  have r3 := Reach.step _ _ r2 (.loopEof _ rfl rfl rfl rfl) (n _ rfl)
  have r4 := Reach.step _ _ r3 (.loopSend _ ⟨[], true⟩ rfl rfl rfl) (n _ rfl)
  have r5 := Reach.step _ _ r4 (.readStart _ 256 rfl rfl) (by intro p hp; cases hp; exact Nat.le_refl _)
  have r6 := Reach.step _ _ r5 (.readResult _ ⟨[], true⟩ 256 rfl rfl) (n _ rfl)
  have r7 := Reach.step _ _ r6 (.readStart _ 256 rfl rfl) (by intro p hp; cases hp; exact Nat.le_refl _)
  obtain ⟨s', st, hc, hr⟩ := h _ _ r7 256 rfl rfl
  cases st with
  | relayRead a b e k1 => cases k1
  | relayEof k1 => cases k1
  | relayWrite a b k1 => cases k1
  | relayLost k1 => cases k1
  | relayEnd k1 => cases k1
  | relayCancel k1 => cases k1
  | loopRead a b k1 => cases k1
  | loopEof k1 => cases k1
  | loopSend r k1 => cases k1
  | loopCancel k1 => cases k1
  | readStart p k1 => cases k1
  | readCanceled p k1 => cases k1
  | readResult r p k1 k2 => cases k2
  | readDone p k1 k2 => cases k2
  | cancel => cases hc

/-- A complete run that meets the hypotheses: the stream "ab" is returned and its end
reported. -/
example : ∃ s, Reach 256 [97, 98] s ∧ s.out = [97, 98] ∧ s.eofNoCancel = true := by
  have n : ∀ (s : St), s.reading = none → ∀ p, s.reading = some p → 256 ≤ p := by
    intro s h p hp; rw [h] at hp; cases hp
  have r0 : Reach 256 [97, 98] (init [97, 98]) := .init
  have r1 := Reach.step _ _ r0 (.relayRead _ [97, 98] [] true rfl rfl rfl rfl (by decide) (by decide) (by simp)) (n _ rfl)
  have r2 := Reach.step _ _ r1 (.relayWrite _ [97, 98] [] rfl rfl rfl (by decide)) (n _ rfl)
  have r3 := Reach.step _ _ r2 (.relayEnd _ rfl rfl rfl) (n _ rfl)
  have r4 := Reach.step _ _ r3 (.loopRead _ [97, 98] [] rfl rfl rfl (by decide) (by decide)) (n _ rfl)
  have r5 := Reach.step _ _ r4 (.loopSend _ ⟨[97, 98], false⟩ rfl rfl rfl) (n _ rfl)
  have r6 := Reach.step _ _ r5 (.readStart _ 4096 rfl rfl) (by intro p hp; cases hp; decide)
  have r7 := Reach.step _ _ r6 (.readResult _ ⟨[97, 98], false⟩ 4096 rfl rfl) (n _ rfl)
  have r8 := Reach.step _ _ r7 (.loopEof _ rfl rfl rfl rfl) (n _ rfl)
  have r9 := Reach.step _ _ r8 (.loopSend _ ⟨[], true⟩ rfl rfl rfl) (n _ rfl)
  have r10 := Reach.step _ _ r9 (.readStart _ 4096 rfl rfl) (by intro p hp; cases hp; decide)
  have r11 := Reach.step _ _ r10 (.readResult _ ⟨[], true⟩ 4096 rfl rfl) (n _ rfl)
  exact ⟨_, r11, rfl, rfl⟩

end Phoenix.Cancel
