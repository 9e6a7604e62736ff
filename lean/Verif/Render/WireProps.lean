import Verif.Render.WireModel
import Verif.Render.Vt
import Verif.Render.Props
/-
C179-C182: the renderer's output as bytes, and when writing fails.
-/
set_option linter.unusedVariables false
set_option linter.unusedSimpArgs false
namespace Phoenix.Render
open Phoenix.Input (utf8)

/-! ### The bytes of a token, read by the byte terminal -/

theorem VT.feed_append (wd) (v : VT) (a b : List Nat) : v.feed wd (a ++ b) = (v.feed wd a).feed wd b :=
  List.foldl_append ..

/-- Parameter bytes accumulate. -/
theorem feed_params (wd) (l : List Nat) : ∀ (ps : List Nat) (t : Term), (∀ b ∈ l, 32 ≤ b ∧ b < 64) →
    VT.feed wd ⟨.csi ps, t⟩ l = ⟨.csi (ps ++ l), t⟩ := by
  induction l with
  | nil => intro ps t _; simp [VT.feed]
  | cons b l ih =>
    intro ps t h
    have hb := h b (by simp)
    have e : VT.byte wd ⟨.csi ps, t⟩ b = ⟨.csi (ps ++ [b]), t⟩ := by
      simp only [VT.byte, vtStep]
      rw [if_neg (by omega), if_neg (by omega), if_pos hb]
      rfl
    show VT.feed wd (VT.byte wd ⟨.csi ps, t⟩ b) l = _
    rw [e, ih _ _ (fun x hx => h x (by simp [hx]))]
    simp

/-- A whole control sequence. -/
theorem feed_csi (wd) (l : List Nat) (f : Nat) (t : Term) (h : ∀ b ∈ l, 32 ≤ b ∧ b < 64) (hf : 64 ≤ f ∧ f ≤ 126) :
    VT.feed wd ⟨.ground, t⟩ (27 :: 91 :: (l ++ [f])) = ⟨.ground, t.event wd (.csi l f)⟩ := by
  have e1 : VT.feed wd ⟨.ground, t⟩ (27 :: 91 :: (l ++ [f])) = VT.feed wd ⟨.csi [], t⟩ (l ++ [f]) := rfl
  rw [e1, VT.feed_append, feed_params wd l [] t h]
  show VT.byte wd ⟨.csi ([] ++ l), t⟩ f = _
  simp only [VT.byte, vtStep, List.nil_append]
  rw [if_neg (by omega), if_pos hf]
  rfl

theorem digit_range {b : Nat} (h : Dec.isDigit b = true) : 48 ≤ b ∧ b ≤ 57 := by
  simpa [Dec.isDigit] using h

theorem nat_range (n : Nat) : ∀ b ∈ Dec.nat n, 32 ≤ b ∧ b < 64 := by
  intro b hb
  have := digit_range (Dec.nat_digits n b hb)
  omega

theorem semi_not_nat (n : Nat) : 59 ∉ Dec.nat n := by
  intro h
  have := digit_range (Dec.nat_digits n _ h)
  omega

/-- Numbers joined by semicolons. -/
def semis (ns : List Nat) : List Nat := joinSemi (ns.map Dec.nat)

theorem joinSemi_cons (a : List Nat) {l : List (List Nat)} (h : l ≠ []) : joinSemi (a :: l) = a ++ 59 :: joinSemi l := by
  cases l with
  | nil => exact absurd rfl h
  | cons b l => rfl

theorem semis_range (ns : List Nat) : ∀ b ∈ semis ns, 32 ≤ b ∧ b < 64 := by
  induction ns with
  | nil => simp [semis, joinSemi]
  | cons n ns ih =>
    intro b hb
    cases ns with
    | nil => exact nat_range n b (by simpa [semis, joinSemi] using hb)
    | cons m ns =>
      rw [show semis (n :: m :: ns) = Dec.nat n ++ 59 :: semis (m :: ns) from rfl] at hb
      rcases List.mem_append.1 hb with hb | hb
      · exact nat_range n b hb
      · rcases List.mem_cons.1 hb with rfl | hb
        · omega
        · exact ih b hb

theorem csiNums_semis (ns : List Nat) (h : ns ≠ []) : csiNums (semis ns) = ns := by
  induction ns with
  | nil => exact absurd rfl h
  | cons n ns ih =>
    cases ns with
    | nil =>
      simp only [semis, List.map_cons, List.map_nil, joinSemi, csiNums]
      rw [Dec.split_none (semi_not_nat n)]
      simp [Dec.parse_nat]
    | cons m ns =>
      have ih := ih (by simp)
      rw [show semis (n :: m :: ns) = Dec.nat n ++ 59 :: semis (m :: ns) from rfl]
      simp only [csiNums] at ih ⊢
      rw [Dec.split_append (semi_not_nat n)]
      simp only [List.map_cons, Dec.parse_nat, Option.getD_some, ih]

/-- The numbers of one SGR code. -/
def sgrCodes : Sgr → List Nat
  | .fg c => [38, 2, c.r.toNat, c.g.toNat, c.b.toNat]
  | .bg c => [48, 2, c.r.toNat, c.g.toNat, c.b.toNat]
  | .bold => [1] | .dim => [2] | .italic => [3] | .underline => [4]
  | .blink => [5] | .reverse => [7] | .hidden => [8] | .strike => [9]

theorem semis_append (a b : List Nat) (ha : a ≠ []) (hb : b ≠ []) : semis (a ++ b) = semis a ++ 59 :: semis b := by
  induction a with
  | nil => exact absurd rfl ha
  | cons n a ih =>
    cases a with
    | nil =>
      cases b with
      | nil => exact absurd rfl hb
      | cons m b => rfl
    | cons m a =>
      have ih := ih (by simp)
      show Dec.nat n ++ 59 :: semis (m :: a ++ b) = (Dec.nat n ++ 59 :: semis (m :: a)) ++ 59 :: semis b
      rw [ih]; simp

theorem sgrText_eq (s : Sgr) : sgrText s = semis (sgrCodes s) := by
  cases s with
  | fg c =>
    simp only [sgrText, semis, sgrCodes, List.map_cons, List.map_nil, joinSemi]
    rw [show Dec.nat 38 = [51, 56] by decide, show Dec.nat 2 = [50] by decide]
    simp
  | bg c =>
    simp only [sgrText, semis, sgrCodes, List.map_cons, List.map_nil, joinSemi]
    rw [show Dec.nat 48 = [52, 56] by decide, show Dec.nat 2 = [50] by decide]
    simp
  | _ => decide

theorem sgrCodes_ne (s : Sgr) : sgrCodes s ≠ [] := by cases s <;> simp [sgrCodes]

theorem join_sgr (cs : List Sgr) (h : cs ≠ []) : joinSemi (cs.map sgrText) = semis (cs.flatMap sgrCodes) := by
  induction cs with
  | nil => exact absurd rfl h
  | cons s cs ih =>
    cases cs with
    | nil => simp [joinSemi, sgrText_eq]
    | cons s' cs =>
      have ih := ih (by simp)
      rw [List.map_cons, joinSemi_cons _ (by simp), ih, sgrText_eq]
      rw [show (s :: s' :: cs).flatMap sgrCodes = sgrCodes s ++ (s' :: cs).flatMap sgrCodes from rfl]
      rw [semis_append _ _ (sgrCodes_ne s) (by
        simp only [List.flatMap_cons, ne_eq, List.append_eq_nil_iff]
        intro ⟨h1, _⟩
        exact sgrCodes_ne s' h1)]

theorem sgrNums_codes (cs : List Sgr) : ∀ s : Style, sgrNums s (cs.flatMap sgrCodes) = cs.foldl Sgr.apply s := by
  induction cs with
  | nil => intro s; rfl
  | cons k cs ih =>
    intro s
    rw [List.flatMap_cons, List.foldl_cons, ← ih]
    cases k <;> simp [sgrCodes, sgrNums, Sgr.apply]

/-- UTF-8 decoding. -/
theorem feed_utf8 (wd) (c : Char) (hc : Prints c) (t : Term) :
    VT.feed wd ⟨.ground, t⟩ (utf8 c.toNat) = ⟨.ground, t.print c (wd c)⟩ := by
  have hs := Phoenix.Input.char_scalar c
  obtain ⟨h32, hC1⟩ := hc
  have hev : decoded c.toNat = .print c := by
    unfold decoded
    rw [if_neg (by omega), Char.ofNat_toNat]
  generalize hn : c.toNat = n at *
  have hev' : ∀ m, m = n → decoded m = .print c := fun m h => h ▸ hev
  unfold Phoenix.Input.Scalar at hs
  unfold utf8
  split
  · show VT.byte wd ⟨.ground, t⟩ n = _
    simp only [VT.byte, vtStep]
    rw [if_neg (by omega), if_pos (by omega), hev]; rfl
  · split
    · show VT.byte wd (VT.byte wd ⟨.ground, t⟩ _) _ = _
      simp only [VT.byte, vtStep]
      rw [if_neg (show ¬ (192 + n / 64 = 27) by omega), if_neg (show ¬ (192 + n / 64 < 128) by omega),
        if_neg (show ¬ (192 + n / 64 < 192) by omega), if_pos (show 192 + n / 64 < 224 by omega),
        if_neg (show ¬ (128 + n % 64 = 27) by omega)]
      simp only
      rw [if_pos (show 128 ≤ 128 + n % 64 ∧ 128 + n % 64 < 192 by omega), if_pos (by omega), hev' _ (by omega)]; rfl
    · split
      · show VT.byte wd (VT.byte wd (VT.byte wd ⟨.ground, t⟩ _) _) _ = _
        simp only [VT.byte, vtStep]
        rw [if_neg (show ¬ (224 + n / 4096 = 27) by omega), if_neg (show ¬ (224 + n / 4096 < 128) by omega),
          if_neg (show ¬ (224 + n / 4096 < 192) by omega), if_neg (show ¬ (224 + n / 4096 < 224) by omega),
          if_pos (show 224 + n / 4096 < 240 by omega), if_neg (show ¬ (128 + n / 64 % 64 = 27) by omega),
          if_neg (show ¬ (128 + n % 64 = 27) by omega)]
        simp only
        rw [if_pos (show 128 ≤ 128 + n / 64 % 64 ∧ 128 + n / 64 % 64 < 192 by omega), if_neg (by omega)]
        simp only
        rw [if_pos (show 128 ≤ 128 + n % 64 ∧ 128 + n % 64 < 192 by omega), if_pos (by omega), hev' _ (by omega)]; rfl
      · show VT.byte wd (VT.byte wd (VT.byte wd (VT.byte wd ⟨.ground, t⟩ _) _) _) _ = _
        simp only [VT.byte, vtStep]
        rw [if_neg (show ¬ (240 + n / 262144 = 27) by omega), if_neg (show ¬ (240 + n / 262144 < 128) by omega),
          if_neg (show ¬ (240 + n / 262144 < 192) by omega), if_neg (show ¬ (240 + n / 262144 < 224) by omega),
          if_neg (show ¬ (240 + n / 262144 < 240) by omega), if_neg (show ¬ (128 + n / 4096 % 64 = 27) by omega),
          if_neg (show ¬ (128 + n / 64 % 64 = 27) by omega), if_neg (show ¬ (128 + n % 64 = 27) by omega)]
        simp only
        rw [if_pos (show 128 ≤ 128 + n / 4096 % 64 ∧ 128 + n / 4096 % 64 < 192 by omega), if_neg (by omega)]
        simp only
        rw [if_pos (show 128 ≤ 128 + n / 64 % 64 ∧ 128 + n / 64 % 64 < 192 by omega), if_neg (by omega)]
        simp only
        rw [if_pos (show 128 ≤ 128 + n % 64 ∧ 128 + n % 64 < 192 by omega), if_pos (by omega), hev' _ (by omega)]; rfl

/-- Tokens the renderer emits: moves to non-negative positions, non-empty SGR, printing characters. -/
def Token.Proper : Token → Prop
  | .move x y => 0 ≤ x ∧ 0 ≤ y
  | .sgr cs => cs ≠ []
  | .char c => Prints c
  | _ => True

theorem dec_int_nat (n : Nat) : Dec.int ((n : Int) + 1) = Dec.nat (n + 1) := rfl

/-- One token. -/
theorem feed_enc (wd) (k : Token) (hk : k.Proper) (t : Term) :
    VT.feed wd ⟨.ground, t⟩ (enc k) = ⟨.ground, t.exec wd k⟩ := by
  cases k with
  | move x y =>
    obtain ⟨hx, hy⟩ := hk
    obtain ⟨a, rfl⟩ : ∃ a : Nat, x = a := ⟨x.toNat, by omega⟩
    obtain ⟨b, rfl⟩ : ∃ b : Nat, y = b := ⟨y.toNat, by omega⟩
    have e : enc (.move (a : Int) (b : Int)) = 27 :: 91 :: (semis [b + 1, a + 1] ++ [72]) := by
      simp only [enc, dec_int_nat, semis, List.map_cons, List.map_nil, joinSemi]
      simp
    rw [e, feed_csi wd _ _ _ (semis_range _) (by omega)]
    simp only [Term.event, csiNums_semis [b + 1, a + 1] (by simp), Term.exec]
    simp only [if_true, List.getD_cons_zero, List.getD_cons_succ, Nat.add_sub_cancel]
    have h1 : min b (t.H - 1) = if (b : Int) < t.H then (b : Int).toNat else t.H - 1 := by
      split <;> omega
    have h2 : min a (t.W - 1) = if (a : Int) < t.W then (a : Int).toNat else t.W - 1 := by
      split <;> omega
    rw [h1, h2]
  | sgr cs =>
    have e : enc (.sgr cs) = 27 :: 91 :: (semis (cs.flatMap sgrCodes) ++ [109]) := by
      simp [enc, join_sgr cs hk]
    have hne : cs.flatMap sgrCodes ≠ [] := by
      cases cs with
      | nil => exact absurd rfl hk
      | cons s cs =>
        simp only [List.flatMap_cons, ne_eq, List.append_eq_nil_iff]
        intro ⟨h1, _⟩
        exact sgrCodes_ne s h1
    rw [e, feed_csi wd _ _ _ (semis_range _) (by omega)]
    simp [Term.event, csiNums_semis _ hne, Term.exec, sgrNums_codes]
  | char c => exact feed_utf8 wd c hk t
  | clearScreen => exact feed_csi wd [50] 74 t (by simp) (by omega)
  | clearLine => exact feed_csi wd [50] 75 t (by simp) (by omega)
  | reset => exact feed_csi wd [48] 109 t (by simp) (by omega)
  | hideCursor => exact feed_csi wd [63, 50, 53] 108 t (by simp) (by omega)
  | showCursor => exact feed_csi wd [63, 50, 53] 104 t (by simp) (by omega)

/-- A token list. -/
theorem feed_encAll (wd) (ks : List Token) : ∀ t : Term, (∀ k ∈ ks, k.Proper) →
    VT.feed wd ⟨.ground, t⟩ (encAll ks) = ⟨.ground, t.feed wd ks⟩ := by
  induction ks with
  | nil => intro t _; rfl
  | cons k ks ih =>
    intro t h
    rw [show encAll (k :: ks) = enc k ++ encAll ks from rfl, VT.feed_append, feed_enc wd k (h k (by simp)),
      ih _ (fun k' hk' => h k' (by simp [hk']))]
    rfl

/-! ### Everything the renderer emits is proper -/

/-- All characters of a buffer print. -/
def Buffer.Printing (b : Buffer) : Prop := ∀ x y : Nat, x < b.width → y < b.height → Prints (b.get x y).char

theorem moveCursor_proper (w : Writer) {x y : Int} (hx : 0 ≤ x) (hy : 0 ≤ y) : ∀ k ∈ (w.moveCursor x y).2, k.Proper := by
  unfold Writer.moveCursor
  split
  · simp
  · simp [Token.Proper, hx, hy]

theorem writeCell_proper (w : Writer) {c : Cell} (hc : Prints c.char) : ∀ k ∈ (w.writeCell c).2, k.Proper := by
  intro k hk
  unfold Writer.writeCell at hk
  simp only [List.mem_append, List.mem_singleton] at hk
  rcases hk with hk | rfl
  · split at hk
    · simp only at hk
      split at hk
      · rename_i hne
        simp only [List.mem_singleton] at hk
        subst hk; exact hne
      · simp at hk
    · simp at hk
  · exact hc

theorem writeCellAt_proper (w : Writer) {x y : Int} (hx : 0 ≤ x) (hy : 0 ≤ y) {c : Cell} (hc : Prints c.char) :
    ∀ k ∈ (w.writeCellAt x y c).2, k.Proper := by
  intro k hk
  rcases List.mem_append.1 hk with hk | hk
  · exact moveCursor_proper w hx hy k hk
  · exact writeCell_proper _ hc k hk

theorem drawCells_proper (b : Buffer) (ps : List (Nat × Nat)) : ∀ w : Writer,
    (∀ p ∈ ps, Prints (b.get p.1 p.2).char) → ∀ k ∈ (drawCells b w ps).2, k.Proper := by
  induction ps with
  | nil => intro w _ k hk; simp [drawCells] at hk
  | cons p ps ih =>
    intro w h k hk
    rw [drawCells] at hk
    split at hk
    · rcases List.mem_append.1 hk with hk | hk
      · exact writeCellAt_proper _ (by omega) (by omega) (h p (by simp)) k hk
      · exact ih _ (fun q hq => h q (by simp [hq])) k hk
    · exact ih _ (fun q hq => h q (by simp [hq])) k hk

theorem applyOps_proper (ops : List DiffOp) : ∀ w : Writer,
    (∀ op ∈ ops, op.type = .set ∧ 0 ≤ op.x ∧ 0 ≤ op.y ∧ Prints op.cell.char) → ∀ k ∈ (applyOps w ops).2, k.Proper := by
  induction ops with
  | nil => intro w _ k hk; simp [applyOps] at hk
  | cons op ops ih =>
    intro w h k hk
    obtain ⟨h1, h2, h3, h4⟩ := h op (by simp)
    simp only [applyOps, h1] at hk
    rcases List.mem_append.1 hk with hk | hk
    · exact writeCellAt_proper _ h2 h3 h4 k hk
    · exact ih _ (fun q hq => h q (by simp [hq])) k hk

theorem diff_ops {old new : Buffer} (h : new.Printing) :
    ∀ op ∈ diff old new, op.type = .set ∧ 0 ≤ op.x ∧ 0 ≤ op.y ∧ Prints op.cell.char := by
  intro op hop
  have key : ∀ (f : Nat × Nat → Bool), op ∈ ((positions new.width new.height).filterMap fun p =>
      if f p then some (⟨.set, p.1, p.2, new.get p.1 p.2⟩ : DiffOp) else none) →
      op.type = .set ∧ 0 ≤ op.x ∧ 0 ≤ op.y ∧ Prints op.cell.char := by
    intro f hm
    obtain ⟨p, hp, e⟩ := List.mem_filterMap.1 hm
    split at e
    · simp only [Option.some.injEq] at e
      subst e
      have := (mem_positions (x := p.1) (y := p.2)).1 hp
      exact ⟨rfl, by simp, by simp, h _ _ this.1 this.2⟩
    · cases e
  unfold diff at hop
  split at hop
  · exact key (fun p => !(new.get p.1 p.2).isEmpty) hop
  · exact key (fun p => !(old.get p.1 p.2).equals (new.get p.1 p.2)) hop

theorem renderFull_proper (r : Renderer) {b : Buffer} (h : b.Printing) : ∀ k ∈ (r.renderFull b).2, k.Proper := by
  intro k hk
  simp only [Renderer.renderFull, List.append_assoc, List.mem_append, List.mem_singleton] at hk
  rcases hk with rfl | hk | hk
  · trivial
  · exact moveCursor_proper _ (by omega) (by omega) k hk
  · refine drawCells_proper b _ _ ?_ k hk
    intro p hp
    have := (mem_positions (x := p.1) (y := p.2)).1 hp
    exact h _ _ this.1 this.2

theorem clear_proper (r : Renderer) : ∀ k ∈ r.clear.2, k.Proper := by
  intro k hk
  simp only [Renderer.clear, List.mem_append, List.mem_singleton] at hk
  rcases hk with rfl | hk
  · trivial
  · exact moveCursor_proper _ (by omega) (by omega) k hk

theorem step_proper (r : Renderer) (op : ROp) (h : ∀ b, op = .render b → b.Printing) :
    ∀ k ∈ (r.step op).2, k.Proper := by
  intro k hk
  cases op with
  | render b =>
    have hb := h b rfl
    simp only [Renderer.step, Renderer.render] at hk
    split at hk
    · exact renderFull_proper r hb k hk
    · split at hk
      · simp at hk
      · split at hk
        · exact renderFull_proper r hb k hk
        · rw [removeRedundant_eq] at hk
          exact applyOps_proper _ _ (diff_ops hb) k hk
  | renderNil => simp [Renderer.step] at hk
  | clear => exact clear_proper r k hk
  | resize w h => exact clear_proper _ k hk
  | hideCursor => simp only [Renderer.step, List.mem_singleton] at hk; subst hk; trivial
  | showCursor => simp only [Renderer.step, List.mem_singleton] at hk; subst hk; trivial

theorem run_proper (ops : List ROp) : ∀ r : Renderer, (∀ b, ROp.render b ∈ ops → b.Printing) →
    ∀ k ∈ (r.run ops).2, k.Proper := by
  induction ops with
  | nil => intro r _ k hk; simp [Renderer.run] at hk
  | cons op ops ih =>
    intro r h k hk
    simp only [Renderer.run, List.mem_append] at hk
    rcases hk with hk | hk
    · exact step_proper r op (fun b e => h b (by simp [e])) k hk
    · exact ih _ (fun b hb => h b (by simp [hb])) k hk

/-! ### bufio.Writer -/

/-- The device reports no error. -/
def Dev.Reliable (d : Dev) : Prop := ∀ o ∈ d.script, o = none

theorem Dev.write_cases (d : Dev) (p : List Nat) :
    ((d.write p).2.2 = true ∧ (d.write p).2.1 = p.length ∧ (d.write p).1.got = d.got ++ p ∧
      (d.Reliable → (d.write p).1.Reliable)) ∨
    ((d.write p).2.2 = false ∧ (∃ n, (d.write p).1.got = d.got ++ p.take n) ∧ ¬ d.Reliable) := by
  unfold Dev.write
  cases hs : d.script with
  | nil => left; simp [Dev.Reliable, hs]
  | cons o r =>
    cases o with
    | none =>
      left
      refine ⟨rfl, rfl, rfl, ?_⟩
      intro h o ho
      exact h o (by rw [hs]; simp [ho])
    | some n =>
      right
      refine ⟨rfl, ⟨n, rfl⟩, ?_⟩
      intro h
      have := h (some n) (by rw [hs]; simp)
      cases this

/-- A buffer in working order. -/
structure Bufio.Ok (b : Bufio) : Prop where
  err : b.err = false
  size : 0 < b.size
  room : b.buf.length ≤ b.size

/-- Everything handed over so far: accepted by the device, or waiting in the buffer. -/
def Bufio.stream (b : Bufio) : List Nat := b.dev.got ++ b.buf

/-- The result of appending `bs`: success, with `bs` appended to the stream, or failure, with the device having a
prefix of the longer stream. -/
def Bufio.Result (b : Bufio) (r : Bufio × Bool) (bs : List Nat) : Prop :=
  (r.2 = true ∧ r.1.Ok ∧ r.1.stream = b.stream ++ bs ∧ (b.dev.Reliable → r.1.dev.Reliable)) ∨
  (r.2 = false ∧ r.1.err = true ∧ r.1.dev.got <+: b.stream ++ bs ∧ ¬ b.dev.Reliable)

theorem take_prefix (p : List Nat) (n : Nat) (q : List Nat) : p.take n <+: p ++ q :=
  (List.take_prefix n p).trans (List.prefix_append p q)

theorem flush_result {b : Bufio} (h : b.Ok) : b.Result b.flush [] ∧ (b.flush.2 = true → b.flush.1.buf = []) ∧
    b.flush.1.size = b.size ∧ b.flush.1.sw = b.sw := by
  unfold Bufio.flush
  rw [if_neg (show ¬ b.err = true by simp [h.err])]
  by_cases hb : b.buf = []
  · rw [if_pos hb]
    exact ⟨.inl ⟨rfl, h, by simp, id⟩, fun _ => hb, rfl, rfl⟩
  · rw [if_neg hb]
    rcases b.dev.write_cases b.buf with ⟨h1, h2, h3, h4⟩ | ⟨h1, ⟨n, h2⟩, h3⟩
    · dsimp only
      rw [if_pos h1]
      exact ⟨.inl ⟨rfl, ⟨h.err, h.size, by simp⟩, by simp [Bufio.stream, h3], h4⟩, fun _ => rfl, rfl, rfl⟩
    · dsimp only
      rw [if_neg (by simp [h1])]
      refine ⟨.inr ⟨rfl, rfl, ?_, h3⟩, fun e => (by cases e), rfl, rfl⟩
      show (b.dev.write b.buf).1.got <+: _
      rw [h2, Bufio.stream, List.append_nil]
      exact (List.prefix_append_right_inj _).2 (List.take_prefix n _)

/-- Composition. -/
theorem Bufio.Result.trans {b c : Bufio} {r : Bufio × Bool} {x y : List Nat} (h1 : c.stream = b.stream ++ x)
    (h2 : b.dev.Reliable → c.dev.Reliable) (h : c.Result r y) : b.Result r (x ++ y) := by
  rcases h with ⟨a1, a2, a3, a4⟩ | ⟨a1, a2, a3, a4⟩
  · exact .inl ⟨a1, a2, by rw [a3, h1, List.append_assoc], fun z => a4 (h2 z)⟩
  · exact .inr ⟨a1, a2, by rw [h1, List.append_assoc] at a3; exact a3, fun z => a4 (h2 z)⟩

theorem loop_stuck (fuel : Nat) (b : Bufio) (s : List Nat) (h : b.err = true) :
    Bufio.writeStringLoop (fuel + 1) b s = (b, false) := by
  simp [Bufio.writeStringLoop, h]

theorem writeStringLoop_writes (fuel : Nat) : ∀ (b : Bufio) (s : List Nat), b.Ok →
    2 * s.length + (if b.buf = [] then 2 else 3) ≤ fuel → b.Result (Bufio.writeStringLoop fuel b s) s := by
  induction fuel with
  | zero => intro b s _ h; split at h <;> omega
  | succ fuel ih =>
    intro b s h hf
    have hf1 : 1 ≤ fuel := by split at hf <;> omega
    obtain ⟨f', rfl⟩ : ∃ f', fuel = f' + 1 := ⟨fuel - 1, by omega⟩
    rw [Bufio.writeStringLoop]
    by_cases hc : b.avail < s.length ∧ b.err = false
    · rw [if_pos hc]
      by_cases hsw : b.buf = [] ∧ b.sw = true
      · rw [if_pos hsw]
        rcases b.dev.write_cases s with ⟨h1, h2, h3, h4⟩ | ⟨h1, ⟨n, h2⟩, h3⟩
        · simp only [h1, h2, List.drop_length, Bool.not_true]
          have ok' : ({ b with dev := (b.dev.write s).1, err := false } : Bufio).Ok := ⟨rfl, h.size, h.room⟩
          have := ih { b with dev := (b.dev.write s).1, err := false } [] ok' (by
            show 2 * 0 + (if b.buf = [] then 2 else 3) ≤ _
            rw [if_pos hsw.1] at hf ⊢; have := hc.1; omega)
          have z := Bufio.Result.trans (b := b) (x := s) (by simp [Bufio.stream, h3, hsw.1]) h4 this
          simpa using z
        · simp only [h1, Bool.not_false]
          rw [loop_stuck _ _ _ rfl]
          refine .inr ⟨rfl, rfl, ?_, h3⟩
          show (b.dev.write s).1.got <+: _
          rw [h2, Bufio.stream, hsw.1, List.append_nil]
          exact (List.prefix_append_right_inj _).2 (List.take_prefix n _)
      · rw [if_neg hsw]
        have ok1 : ({ b with buf := b.buf ++ s.take b.avail } : Bufio).Ok := by
          refine ⟨h.err, h.size, ?_⟩
          show (b.buf ++ s.take b.avail).length ≤ b.size
          have := h.room
          simp only [List.length_append, List.length_take, Bufio.avail]; omega
        obtain ⟨hr, hb, hz, hw⟩ := flush_result ok1
        rcases hr with ⟨a1, a2, a3, a4⟩ | ⟨a1, a2, a3, a4⟩
        · have hb' := hb a1
          have := ih _ (s.drop b.avail) a2 (by
            rw [hb', if_pos rfl, List.length_drop]
            by_cases hbe : b.buf = []
            · rw [if_pos hbe] at hf
              have : b.avail = b.size := by simp [Bufio.avail, hbe]
              have := h.size
              omega
            · rw [if_neg hbe] at hf; omega)
          have z := Bufio.Result.trans (b := b) (x := s.take b.avail) (by
            rw [a3]; simp [Bufio.stream]) a4 this
          simpa using z
        · rw [loop_stuck _ _ _ a2]
          refine .inr ⟨rfl, a2, ?_, a4⟩
          refine a3.trans ?_
          simp only [Bufio.stream, List.append_nil, ← List.append_assoc]
          exact (List.prefix_append_right_inj _).2 (List.take_prefix _ _)
    · rw [if_neg hc, if_neg (show ¬ b.err = true by simp [h.err])]
      simp only [h.err, and_true, Nat.not_lt] at hc
      refine .inl ⟨rfl, ⟨h.err, h.size, ?_⟩, by simp [Bufio.stream], id⟩
      show (b.buf ++ s).length ≤ b.size
      have := h.room
      simp only [Bufio.avail] at hc
      simp only [List.length_append]; omega

theorem writeString_result {b : Bufio} (h : b.Ok) (s : List Nat) : b.Result (b.writeString s) s :=
  writeStringLoop_writes _ b s h (by split <;> omega)

theorem writeString_stuck {b : Bufio} (h : b.err = true) (s : List Nat) : b.writeString s = (b, false) :=
  loop_stuck _ b s h

theorem writeByte_result {b : Bufio} (h : b.Ok) (c : Nat) : b.Result (b.writeByte c) [c] := by
  unfold Bufio.writeByte
  rw [if_neg (show ¬ b.err = true by simp [h.err])]
  dsimp only
  by_cases ha : b.avail = 0
  · rw [if_pos ha]
    obtain ⟨hr, hb, hz, hw⟩ := flush_result h
    rcases hr with ⟨a1, a2, a3, a4⟩ | ⟨a1, a2, a3, a4⟩
    · rw [a1]; simp only [if_true]
      refine .inl ⟨rfl, ⟨a2.err, a2.size, ?_⟩, ?_, a4⟩
      · show (b.flush.1.buf ++ [c]).length ≤ _
        rw [hb a1]; exact a2.size
      · show b.flush.1.dev.got ++ (b.flush.1.buf ++ [c]) = _
        rw [← List.append_assoc, show b.flush.1.dev.got ++ b.flush.1.buf = b.flush.1.stream from rfl, a3]; simp
    · rw [a1]; simp only [Bool.false_eq_true, if_false]
      exact .inr ⟨rfl, a2, a3.trans (by simp), a4⟩
  · rw [if_neg ha]
    simp only [if_true]
    refine .inl ⟨rfl, ⟨h.err, h.size, ?_⟩, by simp [Bufio.stream], id⟩
    show (b.buf ++ [c]).length ≤ b.size
    have := h.room
    simp only [Bufio.avail] at ha
    simp only [List.length_append, List.length_singleton]; omega

theorem writeRune_result {b : Bufio} (h : b.Ok) (c : Nat) : b.Result (b.writeRune c) (utf8 c) := by
  have hlen : (utf8 c).length ≤ 4 := by
    unfold utf8; (repeat' split) <;> simp
  have room : ∀ {b : Bufio}, b.Ok → ¬ b.avail < 4 → b.Result ({ b with buf := b.buf ++ utf8 c }, true) (utf8 c) := by
    intro b h ha
    refine .inl ⟨rfl, ⟨h.err, h.size, ?_⟩, by simp [Bufio.stream], id⟩
    show (b.buf ++ utf8 c).length ≤ b.size
    have := h.room
    simp only [Bufio.avail] at ha
    simp only [List.length_append]; omega
  unfold Bufio.writeRune
  split
  · rename_i hc
    have : utf8 c = [c] := by unfold utf8; rw [if_pos hc]
    rw [this]; exact writeByte_result h c
  · rw [if_neg (show ¬ b.err = true by simp [h.err])]
    split
    · obtain ⟨hr, hb, hz, hw⟩ := flush_result h
      dsimp only
      rcases hr with ⟨a1, a2, a3, a4⟩ | ⟨a1, a2, a3, a4⟩
      · rw [if_neg (show ¬ b.flush.1.err = true by simp [a2.err])]
        split
        · simpa using Bufio.Result.trans (by simpa using a3) a4 (writeString_result a2 (utf8 c)) (x := [])
        · rename_i hav
          simpa using Bufio.Result.trans (by simpa using a3) a4 (room a2 hav) (x := [])
      · rw [a2]
        simp only [if_true]
        exact .inr ⟨rfl, a2, a3.trans (by simp), a4⟩
    · rename_i ha
      exact room h ha

theorem writeRune_stuck {b : Bufio} (h : b.err = true) (c : Nat) : b.writeRune c = (b, false) := by
  unfold Bufio.writeRune Bufio.writeByte
  simp [h]

theorem flush_stuck {b : Bufio} (h : b.err = true) : b.flush = (b, false) := by
  simp [Bufio.flush, h]

/-! ### The writer and the renderer refine the failure-free model -/

/-- A failing action refines a pure one. -/
structure Refines (a : Act WriterIO) (f : Writer → Writer × List Token) : Prop where
  live : ∀ s : WriterIO, s.b.Ok →
    s.b.Result ((a s).1.b, (a s).2) (encAll (f s.w).2) ∧ ((a s).2 = true → (a s).1.w = (f s.w).1)
  stuck : ∀ s : WriterIO, s.b.err = true → (a s).1.b = s.b

/-- Sequential composition of pure steps. -/
def pseq (f g : Writer → Writer × List Token) : Writer → Writer × List Token := fun w =>
  ((g (f w).1).1, (f w).2 ++ (g (f w).1).2)

theorem encAll_append (a b : List Token) : encAll (a ++ b) = encAll a ++ encAll b := by simp [encAll]

theorem Refines.seq {a b : Act WriterIO} {f g : Writer → Writer × List Token} (ha : Refines a f) (hb : Refines b g) :
    Refines (Act.seq a b) (pseq f g) := by
  constructor
  · intro s hs
    obtain ⟨r1, w1⟩ := ha.live s hs
    unfold Act.seq
    rcases r1 with ⟨a1, a2, a3, a4⟩ | ⟨a1, a2, a3, a4⟩
    · simp only at a1 a2 a3 a4
      rw [a1]
      simp only [if_true]
      obtain ⟨r2, w2⟩ := hb.live (a s).1 a2
      rw [w1 a1] at r2 w2
      simp only [pseq, encAll_append]
      exact ⟨Bufio.Result.trans a3 a4 r2, w2⟩
    · simp only at a1 a2 a3 a4
      rw [a1]
      simp only [Bool.false_eq_true, if_false]
      refine ⟨.inr ⟨rfl, a2, ?_, a4⟩, fun e => by cases e⟩
      simp only [pseq, encAll_append, ← List.append_assoc]
      exact a3.trans (List.prefix_append _ _)
  · intro s hs
    unfold Act.seq
    have h1 := ha.stuck s hs
    split
    · rw [hb.stuck _ (by rw [h1]; exact hs), h1]
    · exact h1

theorem refines_skip : Refines (fun s => (s, true)) (fun w => (w, [])) :=
  ⟨fun s hs => ⟨.inl ⟨rfl, hs, by simp [encAll], id⟩, fun _ => rfl⟩, fun _ _ => rfl⟩

theorem result_false {b : Bufio} {r : Bufio × Bool} {bs : List Nat} (h : b.Result r bs) (h2 : r.2 = false) :
    b.Result (r.1, false) bs := by
  rcases h with ⟨a1, _⟩ | ⟨_, a2, a3, a4⟩
  · rw [a1] at h2; cases h2
  · exact .inr ⟨rfl, a2, a3, a4⟩

theorem result_true {b : Bufio} {r : Bufio × Bool} {bs : List Nat} (h : b.Result r bs) (h2 : r.2 = true) :
    b.Result (r.1, true) bs := by
  rcases h with ⟨a1, a2, a3, a4⟩ | ⟨a1, _⟩
  · exact .inl ⟨rfl, a2, a3, a4⟩
  · rw [a1] at h2; cases h2

theorem encAll_one (k : Token) : encAll [k] = enc k := by simp [encAll]

theorem refines_move (x y : Int) : Refines (WriterIO.moveCursor x y) (fun w => w.moveCursor x y) := by
  constructor
  · intro s hs
    unfold WriterIO.moveCursor Writer.moveCursor
    split
    · exact ⟨.inl ⟨rfl, hs, by simp [encAll], id⟩, fun _ => rfl⟩
    · have h := writeString_result hs (enc (.move x y))
      simp only [encAll_one]
      split
      · rename_i h2; exact ⟨result_true h h2, fun _ => rfl⟩
      · rename_i h2; exact ⟨result_false h (by simpa using h2), fun e => by cases e⟩
  · intro s hs
    unfold WriterIO.moveCursor
    rw [writeString_stuck hs]
    split <;> simp

theorem refines_emit (k : Token) : Refines (WriterIO.emit k) (fun w => (w, [k])) := by
  constructor
  · intro s hs
    refine ⟨?_, fun _ => rfl⟩
    rw [encAll_one]
    exact writeString_result hs (enc k)
  · intro s hs
    simp [WriterIO.emit, writeString_stuck hs]

theorem refines_flush : Refines WriterIO.flush (fun w => (w, [])) := by
  constructor
  · intro s hs
    exact ⟨(flush_result hs).1, fun _ => rfl⟩
  · intro s hs
    simp [WriterIO.flush, flush_stuck hs]

/-- The style part of WriteCell, pure. -/
def pureStyle (st : Style) (w : Writer) : Writer × List Token :=
  if !st.equals w.style then
    (({ w with style := st } : Writer), if st.toANSI ≠ [] then [Token.sgr st.toANSI] else [])
  else (w, [])

theorem refines_setStyle (st : Style) : Refines (WriterIO.setStyle st) (pureStyle st) := by
  constructor
  · intro s hs
    unfold WriterIO.setStyle pureStyle
    split
    · by_cases hne : st.toANSI ≠ []
      · rw [if_pos hne, if_pos hne]
        dsimp only
        rw [encAll_one]
        have h := writeString_result hs (enc (.sgr st.toANSI))
        split
        · rename_i h2; exact ⟨result_true h h2, fun _ => rfl⟩
        · rename_i h2; exact ⟨result_false h (by simpa using h2), fun e => by cases e⟩
      · rw [if_neg hne, if_neg hne]
        exact ⟨.inl ⟨rfl, hs, by simp [encAll], id⟩, fun _ => rfl⟩
    · exact ⟨.inl ⟨rfl, hs, by simp [encAll], id⟩, fun _ => rfl⟩
  · intro s hs
    unfold WriterIO.setStyle
    rw [writeString_stuck hs]
    (repeat' split) <;> simp

theorem refines_putChar (c : Cell) :
    Refines (WriterIO.putChar c) (fun w => ({ w with x := w.x + c.width }, [.char c.char])) := by
  constructor
  · intro s hs
    unfold WriterIO.putChar
    have h := writeRune_result hs c.char.toNat
    simp only [encAll_one]
    rw [show enc (.char c.char) = utf8 c.char.toNat from rfl]
    split
    · rename_i h2; exact ⟨result_true h h2, fun _ => rfl⟩
    · rename_i h2; exact ⟨result_false h (by simpa using h2), fun e => by cases e⟩
  · intro s hs
    unfold WriterIO.putChar
    rw [writeRune_stuck hs]
    simp

theorem refines_writeCell (c : Cell) : Refines (WriterIO.writeCell c) (fun w => w.writeCell c) := by
  have h := Refines.seq (refines_setStyle c.style) (refines_putChar c)
  have e : pseq (pureStyle c.style) (fun w => ({ w with x := w.x + c.width }, [Token.char c.char]))
      = fun w => w.writeCell c := by
    funext w
    unfold pseq pureStyle Writer.writeCell
    by_cases hc : (!c.style.equals w.style) = true
    · simp [hc]
    · simp [hc]
  rw [e] at h
  exact h

theorem refines_drawCells (b : Buffer) (ps : List (Nat × Nat)) :
    Refines (drawCellsIO b ps) (fun w => drawCells b w ps) := by
  induction ps with
  | nil => exact refines_skip
  | cons p ps ih =>
    rw [drawCellsIO]
    by_cases h : (!(b.get p.1 p.2).isEmpty) = true
    · rw [if_pos h]
      have e : (fun w => drawCells b w (p :: ps)) =
          pseq (fun w => w.moveCursor p.1 p.2) (pseq (fun w => w.writeCell (b.get p.1 p.2)) (fun w => drawCells b w ps)) := by
        funext w
        simp only [drawCells, if_pos h, pseq, Writer.writeCellAt, List.append_assoc]
      rw [e]
      exact (refines_move _ _).seq ((refines_writeCell _).seq ih)
    · rw [if_neg h]
      have e : (fun w => drawCells b w (p :: ps)) = fun w => drawCells b w ps := by
        funext w
        simp only [drawCells, if_neg h]
      rw [e]; exact ih

theorem refines_applyOps (ops : List DiffOp) : Refines (applyOpsIO ops) (fun w => applyOps w ops) := by
  induction ops with
  | nil => exact refines_skip
  | cons op ops ih =>
    rw [applyOpsIO]
    cases ht : op.type with
    | set =>
      have e : (fun w => applyOps w (op :: ops)) =
          pseq (fun w => w.moveCursor op.x op.y) (pseq (fun w => w.writeCell op.cell) (fun w => applyOps w ops)) := by
        funext w
        simp only [applyOps, ht, pseq, Writer.writeCellAt, List.append_assoc]
      rw [e]
      exact (refines_move _ _).seq ((refines_writeCell _).seq ih)
    | clear =>
      have e : (fun w => applyOps w (op :: ops)) =
          pseq (fun w => w.moveCursor op.x op.y) (pseq (fun w => (w, [.clearLine])) (fun w => applyOps w ops)) := by
        funext w
        simp only [applyOps, ht, pseq, List.append_assoc]
      rw [e]
      exact (refines_move _ _).seq ((refines_emit _).seq ih)
    | moveCursor =>
      have e : (fun w => applyOps w (op :: ops)) =
          pseq (fun w => w.moveCursor op.x op.y) (fun w => applyOps w ops) := by
        funext w
        simp only [applyOps, ht, pseq]
      rw [e]
      exact (refines_move _ _).seq ih

/-! ### One call -/

/-- The failure-free renderer inside. -/
def RendererIO.pure (r : RendererIO) : Renderer :=
  { writer := r.io.w, prev := r.prev, width := r.width, height := r.height }

/-- Between calls: a working buffer with nothing waiting. -/
structure RendererIO.Idle (r : RendererIO) : Prop where
  ok : r.io.b.Ok
  empty : r.io.b.buf = []

/-- A call refines the failure-free call. -/
structure RefinesR (a : Act RendererIO) (f : Renderer → Renderer × List Token) : Prop where
  live : ∀ r : RendererIO, r.Idle →
    ((a r).2 = true ∧ (a r).1.Idle ∧ (a r).1.pure = (f r.pure).1 ∧
      (a r).1.io.b.dev.got = r.io.b.dev.got ++ encAll (f r.pure).2 ∧ (r.io.b.dev.Reliable → (a r).1.io.b.dev.Reliable)) ∨
    ((a r).2 = false ∧ (a r).1.io.b.err = true ∧ (a r).1.io.b.dev.got <+: r.io.b.dev.got ++ encAll (f r.pure).2 ∧
      ¬ r.io.b.dev.Reliable)
  stuck : ∀ r : RendererIO, r.io.b.err = true → (a r).1.io.b = r.io.b

/-- A sequence that ends with a flush, run between calls. -/
theorem flushed {a : Act WriterIO} {f : Writer → Writer × List Token} (ha : Refines a f) (s : WriterIO) (hok : s.b.Ok)
    (he : s.b.buf = []) :
    ((Act.seq a WriterIO.flush s).2 = true ∧ (Act.seq a WriterIO.flush s).1.b.Ok ∧
      (Act.seq a WriterIO.flush s).1.b.buf = [] ∧ (Act.seq a WriterIO.flush s).1.w = (f s.w).1 ∧
      (Act.seq a WriterIO.flush s).1.b.dev.got = s.b.dev.got ++ encAll (f s.w).2 ∧
      (s.b.dev.Reliable → (Act.seq a WriterIO.flush s).1.b.dev.Reliable)) ∨
    ((Act.seq a WriterIO.flush s).2 = false ∧ (Act.seq a WriterIO.flush s).1.b.err = true ∧
      (Act.seq a WriterIO.flush s).1.b.dev.got <+: s.b.dev.got ++ encAll (f s.w).2 ∧ ¬ s.b.dev.Reliable) := by
  obtain ⟨h, hw⟩ := (ha.seq refines_flush).live s hok
  have e : encAll (pseq f (fun w => (w, [])) s.w).2 = encAll (f s.w).2 := by simp [pseq]
  rw [e] at h
  have hs : s.b.stream = s.b.dev.got := by simp [Bufio.stream, he]
  rw [Bufio.Result, hs] at h
  rcases h with ⟨a1, a2, a3, a4⟩ | ⟨a1, a2, a3, a4⟩
  · left
    have hb : (Act.seq a WriterIO.flush s).1.b.buf = [] := by
      simp only at a1
      revert a1
      unfold Act.seq
      split
      · rename_i h1
        intro h2
        have hok2 : (a s).1.b.Ok := by
          rcases (ha.live s hok).1 with ⟨_, z, _⟩ | ⟨z, _⟩
          · exact z
          · simp only at z; rw [z] at h1; cases h1
        exact (flush_result hok2).2.1 h2
      · intro h2; cases h2
    refine ⟨a1, a2, hb, hw a1, ?_, a4⟩
    simpa [Bufio.stream, hb] using a3
  · exact .inr ⟨a1, a2, a3, a4⟩

theorem seq_assoc {σ : Type} (a b c : Act σ) : Act.seq a (Act.seq b c) = Act.seq (Act.seq a b) c := by
  funext s
  unfold Act.seq
  by_cases h : (a s).2 = true
  · simp [h]
  · simp [h]

theorem fullIO_eq (b : Buffer) : fullIO b = Act.seq (Act.seq (WriterIO.emit .clearScreen)
    (Act.seq (WriterIO.moveCursor 0 0) (drawCellsIO b (positions b.width b.height)))) WriterIO.flush := by
  rw [fullIO, seq_assoc (WriterIO.moveCursor 0 0), seq_assoc]

theorem refinesR_full (b : Buffer) : RefinesR (RendererIO.renderFull b) (fun r => r.renderFull b) := by
  have href := (refines_emit .clearScreen).seq ((refines_move 0 0).seq (refines_drawCells b (positions b.width b.height)))
  constructor
  · intro r hr
    have h := flushed href r.io hr.ok hr.empty
    rw [← fullIO_eq] at h
    unfold RendererIO.renderFull
    dsimp only
    have ep : ∀ w, (pseq (fun w => (w, [Token.clearScreen])) (pseq (fun w : Writer => w.moveCursor 0 0)
        (fun w => drawCells b w (positions b.width b.height))) w).2 =
        [.clearScreen] ++ (w.moveCursor 0 0).2 ++ (drawCells b (w.moveCursor 0 0).1 (positions b.width b.height)).2 := by
      intro w; simp [pseq]
    rw [ep] at h
    rcases h with ⟨a1, a2, a3, a4, a5, a6⟩ | ⟨a1, a2, a3, a4⟩
    · rw [if_pos a1]
      refine .inl ⟨rfl, ⟨a2, a3⟩, ?_, a5, a6⟩
      simp only [RendererIO.pure, Renderer.renderFull, a4]
      rfl
    · rw [if_neg (by simp [a1])]
      exact .inr ⟨rfl, a2, a3, a4⟩
  · intro r hr
    have h := (href.seq refines_flush).stuck r.io hr
    rw [← fullIO_eq] at h
    unfold RendererIO.renderFull
    dsimp only
    split <;> exact h

theorem refinesR_clear : RefinesR RendererIO.clear (fun r => r.clear) := by
  have href := (refines_emit .clearScreen).seq (refines_move 0 0)
  have e : Act.seq (WriterIO.emit .clearScreen) (Act.seq (WriterIO.moveCursor 0 0) WriterIO.flush) =
      Act.seq (Act.seq (WriterIO.emit .clearScreen) (WriterIO.moveCursor 0 0)) WriterIO.flush := seq_assoc _ _ _
  constructor
  · intro r hr
    have h := flushed href r.io hr.ok hr.empty
    unfold RendererIO.clear
    dsimp only
    rw [e]
    rcases h with ⟨a1, a2, a3, a4, a5, a6⟩ | ⟨a1, a2, a3, a4⟩
    · rw [if_pos a1]
      refine .inl ⟨rfl, ⟨a2, a3⟩, ?_, a5, a6⟩
      simp only [RendererIO.pure, Renderer.clear, a4]
      rfl
    · rw [if_neg (by simp [a1])]
      exact .inr ⟨rfl, a2, a3, a4⟩
  · intro r hr
    have h := (href.seq refines_flush).stuck r.io hr
    unfold RendererIO.clear
    dsimp only
    rw [e]
    split <;> exact h

theorem refinesR_cursor (k : Token) : RefinesR (RendererIO.cursor k) (fun r => (r, [k])) := by
  constructor
  · intro r hr
    rcases flushed (refines_emit k) r.io hr.ok hr.empty with ⟨a1, a2, a3, a4, a5, a6⟩ | ⟨a1, a2, a3, a4⟩
    · refine .inl ⟨a1, ⟨a2, a3⟩, ?_, a5, a6⟩
      simp only [RendererIO.pure, RendererIO.cursor, a4]
    · exact .inr ⟨a1, a2, a3, a4⟩
  · intro r hr
    exact ((refines_emit k).seq refines_flush).stuck r.io hr

theorem refinesR_skip : RefinesR (fun r => (r, true)) (fun r => (r, [])) :=
  ⟨fun r hr => .inl ⟨rfl, hr, rfl, by simp [encAll], id⟩, fun _ _ => rfl⟩

theorem refinesR_render (b : Buffer) : RefinesR (RendererIO.render b) (fun r => r.render b) := by
  constructor
  · intro r hr
    unfold RendererIO.render Renderer.render
    have e1 : r.pure.width = r.width := rfl
    have e2 : r.pure.height = r.height := rfl
    have e3 : r.pure.prev = r.prev := rfl
    have e4 : r.pure.writer = r.io.w := rfl
    simp only [e1, e2, e3, e4]
    by_cases h1 : (b.width : Int) ≠ r.width ∨ (b.height : Int) ≠ r.height
    · simp only [if_pos h1]; exact (refinesR_full b).live r hr
    · simp only [if_neg h1]
      by_cases h2 : (diff r.prev b).length = 0
      · simp only [if_pos h2]; exact .inl ⟨trivial, hr, trivial, by simp [encAll], id⟩
      · simp only [if_neg h2]
        by_cases h3 : shouldFullRedraw (removeRedundant (diff r.prev b) r.io.w.style).length (r.width * r.height).toNat = true
        · simp only [if_pos h3]; exact (refinesR_full b).live r hr
        · simp only [if_neg h3]
          rcases flushed (refines_applyOps (removeRedundant (diff r.prev b) r.io.w.style)) r.io hr.ok hr.empty with
            ⟨a1, a2, a3, a4, a5, a6⟩ | ⟨a1, a2, a3, a4⟩
          · rw [if_pos a1]
            refine .inl ⟨rfl, ⟨a2, a3⟩, ?_, a5, a6⟩
            simp only [RendererIO.pure, a4]
          · rw [if_neg (by simp [a1])]
            exact .inr ⟨rfl, a2, a3, a4⟩
  · intro r hr
    unfold RendererIO.render
    split
    · exact (refinesR_full b).stuck r hr
    · split
      · rfl
      · split
        · exact (refinesR_full b).stuck r hr
        · have h := ((refines_applyOps (removeRedundant (diff r.prev b) r.io.w.style)).seq refines_flush).stuck r.io hr
          dsimp only
          split <;> exact h

theorem refinesR_step (op : ROp) : RefinesR (RendererIO.step op) (fun r => r.step op) := by
  cases op with
  | render b => exact refinesR_render b
  | renderNil => exact refinesR_skip
  | clear => exact refinesR_clear
  | resize w h =>
    constructor
    · intro r hr
      exact refinesR_clear.live { r with width := w, height := h, prev := Buffer.new w h } ⟨hr.ok, hr.empty⟩
    · intro r hr
      exact refinesR_clear.stuck { r with width := w, height := h, prev := Buffer.new w h } hr
  | hideCursor => exact refinesR_cursor _
  | showCursor => exact refinesR_cursor _

theorem run_stuck (ops : List ROp) : ∀ r : RendererIO, r.io.b.err = true → (r.run ops).1.io.b = r.io.b := by
  induction ops with
  | nil => intro r _; rfl
  | cons op ops ih =>
    intro r h
    have h1 := (refinesR_step op).stuck r h
    show (RendererIO.run (RendererIO.step op r).1 ops).1.io.b = _
    rw [ih _ (by rw [h1]; exact h), h1]

/-- Whole histories. -/
theorem run_refines (ops : List ROp) : ∀ r : RendererIO, r.Idle →
    ((∀ o ∈ (r.run ops).2, o = true) ∧ (r.run ops).1.Idle ∧
      (r.run ops).1.io.b.dev.got = r.io.b.dev.got ++ encAll (r.pure.run ops).2 ∧
      (r.io.b.dev.Reliable → (r.run ops).1.io.b.dev.Reliable)) ∨
    ((∃ o ∈ (r.run ops).2, o = false) ∧ (r.run ops).1.io.b.err = true ∧
      (r.run ops).1.io.b.dev.got <+: r.io.b.dev.got ++ encAll (r.pure.run ops).2 ∧ ¬ r.io.b.dev.Reliable) := by
  induction ops with
  | nil => intro r hr; exact .inl ⟨by simp [RendererIO.run], hr, by simp [RendererIO.run, Renderer.run, encAll], id⟩
  | cons op ops ih =>
    intro r hr
    have er : r.run (op :: ops) = (((RendererIO.step op r).1.run ops).1,
      (RendererIO.step op r).2 :: ((RendererIO.step op r).1.run ops).2) := rfl
    have ep : (r.pure.run (op :: ops)).2 = (r.pure.step op).2 ++ ((r.pure.step op).1.run ops).2 := rfl
    rw [er, ep, encAll_append, ← List.append_assoc]
    rcases (refinesR_step op).live r hr with ⟨a1, a2, a3, a4, a5⟩ | ⟨a1, a2, a3, a4⟩
    · rcases ih _ a2 with ⟨b1, b2, b3, b4⟩ | ⟨⟨o, b0, b1⟩, b2, b3, b4⟩
      · refine .inl ⟨?_, b2, ?_, fun z => b4 (a5 z)⟩
        · intro o ho
          rcases List.mem_cons.1 ho with rfl | ho
          · exact a1
          · exact b1 o ho
        · rw [b3, a4, a3]
      · refine .inr ⟨⟨o, List.mem_cons_of_mem _ b0, b1⟩, b2, ?_, fun z => b4 (a5 z)⟩
        rw [a4, a3] at b3; exact b3
    · refine .inr ⟨⟨_, List.mem_cons_self .., a1⟩, ?_, ?_, a4⟩
      · rw [run_stuck _ _ a2]; exact a2
      · rw [run_stuck _ _ a2]
        exact a3.trans (List.prefix_append _ _)

theorem idle_new (w h size : Int) (sw : Bool) (d : Dev) : (RendererIO.new w h size sw d).Idle := by
  refine ⟨⟨rfl, ?_, Nat.zero_le _⟩, rfl⟩
  show 0 < if size ≤ 0 then 4096 else size.toNat
  split <;> omega

/-! ## C179: the bytes written show the picture -/

/-- What a byte terminal (blank at first) shows after everything the device has accepted. -/
def onScreen (wd : Char → Nat) (W H : Nat) (d : Dev) : Term := ((VT.init W H).feed wd d.got).t

/-- C179. Whatever the buffer size and the kind of device, and whatever its Write calls do: if every call of a
history returned nil (the rendered buffers fit, with printing single-column characters), then a terminal that has read
exactly the bytes the device accepted shows, at every position, the character of the last rendered buffer. -/
theorem C179_wire_picture (wd : Char → Nat) (W H : Nat) (hW : 0 < W) (hH : 0 < H) (w h size : Int) (sw : Bool)
    (script : List (Option Nat)) (ops : List ROp)
    (hf : ∀ b, ROp.render b ∈ ops → Fits wd W H b) (hp : ∀ b, ROp.render b ∈ ops → b.Printing)
    (hall : ∀ o ∈ ((RendererIO.new w h size sw ⟨[], script⟩).run ops).2, o = true) (x y : Nat) (hx : x < W) (hy : y < H) :
    ((onScreen wd W H ((RendererIO.new w h size sw ⟨[], script⟩).run ops).1.io.b.dev).scr x y).ch
      = glyphAt (picture ops none) x y := by
  rcases run_refines ops _ (idle_new w h size sw ⟨[], script⟩) with ⟨_, _, a3, _⟩ | ⟨⟨o, ho, e⟩, _⟩
  · rw [← C13_glyph_exact wd W H hW hH w h ops hf x y hx hy]
    unfold onScreen VT.init
    rw [a3, show (RendererIO.new w h size sw ⟨[], script⟩).io.b.dev.got = [] from rfl, List.nil_append,
      feed_encAll wd _ _ (run_proper ops _ hp)]
    rfl
  · rw [hall o ho] at e; cases e

/-- C179, styles: with one common set of attributes (see C14) each cell is also shown with exactly its style. -/
theorem C179_wire_style (wd : Char → Nat) (W H : Nat) (hW : 0 < W) (hH : 0 < H) (w h size : Int) (sw : Bool)
    (script : List (Option Nat)) (M : Mask) (bs : List Buffer) (b : Buffer) (hlast : bs.getLast? = some b)
    (hf : ∀ b ∈ bs, Fits wd W H b) (hp : ∀ b ∈ bs, b.Printing)
    (hm : ∀ b ∈ bs, ∀ x y : Nat, x < b.width → y < b.height → (b.get x y).style.mask = M)
    (hall : ∀ o ∈ ((RendererIO.new w h size sw ⟨[], script⟩).run (bs.map .render)).2, o = true)
    (x y : Nat) (hx : x < b.width) (hy : y < b.height) :
    ((onScreen wd W H ((RendererIO.new w h size sw ⟨[], script⟩).run (bs.map .render)).1.io.b.dev).scr x y).style
      = (b.get x y).style := by
  rcases run_refines (bs.map .render) _ (idle_new w h size sw ⟨[], script⟩) with ⟨_, _, a3, _⟩ | ⟨⟨o, ho, e⟩, _⟩
  · rw [← C14_style_exact_partial wd W H hW hH w h M bs b hlast hf hm x y hx hy]
    unfold onScreen VT.init
    rw [a3, show (RendererIO.new w h size sw ⟨[], script⟩).io.b.dev.got = [] from rfl, List.nil_append,
      feed_encAll wd _ _ (run_proper _ _ (by
        intro b hb
        obtain ⟨b', hb', e⟩ := List.mem_map.1 hb
        cases e
        exact hp b hb'))]
    rfl
  · rw [hall o ho] at e; cases e

/-- After a history of successful calls the byte stream is complete: the terminal is not in the middle of a
sequence or character, so other output may follow. -/
theorem C179_wire_complete (wd : Char → Nat) (W H : Nat) (w h size : Int) (sw : Bool)
    (script : List (Option Nat)) (ops : List ROp) (hp : ∀ b, ROp.render b ∈ ops → b.Printing)
    (hall : ∀ o ∈ ((RendererIO.new w h size sw ⟨[], script⟩).run ops).2, o = true) :
    ((VT.init W H).feed wd ((RendererIO.new w h size sw ⟨[], script⟩).run ops).1.io.b.dev.got).p = .ground := by
  rcases run_refines ops _ (idle_new w h size sw ⟨[], script⟩) with ⟨_, _, a3, _⟩ | ⟨⟨o, ho, e⟩, _⟩
  · unfold VT.init
    rw [a3, show (RendererIO.new w h size sw ⟨[], script⟩).io.b.dev.got = [] from rfl, List.nil_append,
      feed_encAll wd _ _ (run_proper ops _ hp)]
  · rw [hall o ho] at e; cases e

/-- A two-row frame with a coloured wide-range character, through a 3-byte buffer: the calls succeed and the
bytes are those of codes.go. -/
def wireOps : List ROp :=
  [.hideCursor, .render ⟨2, 2, [[⟨'a', {}, 1⟩, ⟨' ', {}, 1⟩], [⟨' ', {}, 1⟩, ⟨'é', { fg := some ⟨1, 20, 255⟩, bold := true }, 1⟩]]⟩]

example : (∀ o ∈ ((RendererIO.new 2 2 3 true ⟨[], []⟩).run wireOps).2, o = true) ∧
    ((RendererIO.new 2 2 3 true ⟨[], []⟩).run wireOps).1.io.b.dev.got =
      [27, 91, 63, 50, 53, 108, 97, 27, 91, 50, 59, 50, 72,
       27, 91, 51, 56, 59, 50, 59, 49, 59, 50, 48, 59, 50, 53, 53, 59, 49, 109, 195, 169] := by
  decide +kernel

/-! ## C180: control characters in cells -/

/-- The parser alone. -/
def vtRun : PState → List Nat → PState × List Event
  | p, [] => (p, [])
  | p, b :: bs => ((vtRun (vtStep p b).1 bs).1, (vtStep p b).2 ++ (vtRun (vtStep p b).1 bs).2)

/-- The full claim: a cell can only ever print its character. In any history of buffers that fit, whose cells have the
width the terminal gives their character, every position whose cell holds a printing character shows it. -/
def C180_statement : Prop :=
  ∀ (wd : Char → Nat) (W H : Nat) (w h : Int) (ops : List ROp) (b : Buffer),
    (∀ b, ROp.render b ∈ ops → b.width ≤ W ∧ b.height ≤ H ∧
      ∀ x y : Nat, x < b.width → y < b.height → wd (b.get x y).char = (b.get x y).width ∧ (b.get x y).width ≤ 1) →
    picture ops none = some b → ∀ x y : Nat, x < b.width → y < b.height → Prints (b.get x y).char →
    ((onScreen wd W H ((RendererIO.new w h 4096 true ⟨[], []⟩).run ops).1.io.b.dev).scr x y).ch = (b.get x y).char

/-- Width 0 for control characters, 1 for the rest. -/
def wdCtl (c : Char) : Nat := if c.toNat < 32 then 0 else 1

/-- Refuted: one frame has a line feed in the top left cell (`SetString(0, 0, "\n", s)`), the next an "x" there. The
line feed moves the terminal's cursor down, the renderer believes it still is in the top left corner, and the "x"
appears in the second row. -/
theorem C180_control_refuted : ¬ C180_statement := by
  intro h
  have := h wdCtl 2 2 2 2
    [.render ⟨2, 2, [[⟨'\n', {}, 0⟩, Cell.empty], [Cell.empty, Cell.empty]]⟩,
     .render ⟨2, 2, [[⟨'x', {}, 1⟩, Cell.empty], [Cell.empty, Cell.empty]]⟩]
    ⟨2, 2, [[⟨'x', {}, 1⟩, Cell.empty], [Cell.empty, Cell.empty]]⟩ (by
      intro b hb
      simp only [List.mem_cons, List.not_mem_nil, or_false, ROp.render.injEq] at hb
      rcases hb with rfl | rfl
      · refine ⟨by decide, by decide, ?_⟩
        intro x y hx hy
        have hx : x < 2 := hx
        have hy : y < 2 := hy
        obtain rfl | rfl : x = 0 ∨ x = 1 := by omega
        · obtain rfl | rfl : y = 0 ∨ y = 1 := by omega
          · decide
          · decide
        · obtain rfl | rfl : y = 0 ∨ y = 1 := by omega
          · decide
          · decide
      · refine ⟨by decide, by decide, ?_⟩
        intro x y hx hy
        have hx : x < 2 := hx
        have hy : y < 2 := hy
        obtain rfl | rfl : x = 0 ∨ x = 1 := by omega
        · obtain rfl | rfl : y = 0 ∨ y = 1 := by omega
          · decide
          · decide
        · obtain rfl | rfl : y = 0 ∨ y = 1 := by omega
          · decide
          · decide) rfl 0 0 (by decide) (by decide) (by unfold Prints; decide)
  revert this
  decide +kernel

/-- An ESC in a cell followed, in the next frame, by "c" in the same cell is a full reset of the terminal: the rest of
the screen goes blank although the buffer still holds "k" in the second row. -/
example : ((onScreen wdCtl 2 2 ((RendererIO.new 2 2 4096 true ⟨[], []⟩).run
    [.render ⟨2, 2, [[Cell.empty, Cell.empty], [⟨'k', {}, 1⟩, Cell.empty]]⟩,
     .render ⟨2, 2, [[⟨'\x1b', {}, 0⟩, Cell.empty], [⟨'k', {}, 1⟩, Cell.empty]]⟩,
     .render ⟨2, 2, [[⟨'c', {}, 1⟩, Cell.empty], [⟨'k', {}, 1⟩, Cell.empty]]⟩]).1.io.b.dev).scr 0 1).ch = ' ' := by
  decide +kernel

/-- What holds: exactly the printing characters are printed when written; all others reach the terminal as controls
(the renderer filters nothing). Together with C179 (all cells print): control characters are the only way in. -/
theorem C180_only_controls_partial (c : Char) :
    vtRun .ground (enc (.char c)) = (.ground, [.print c]) ↔ Prints c := by
  have hs := Phoenix.Input.char_scalar c
  have inj : ∀ p q : PState, ∀ a b : List Event, (p, a) = (q, b) → a = b := fun p q a b e => (Prod.mk.injEq .. ▸ e).2
  rw [show enc (.char c) = utf8 c.toNat from rfl]
  have hdec : decoded c.toNat = .print c ↔ Prints c := by
    unfold decoded Prints
    split
    · constructor
      · intro e; cases e
      · intro e; omega
    · rw [Char.ofNat_toNat]; simp only [true_iff]; omega
  generalize hn : c.toNat = n at *
  have hdec' : ∀ m, m = n → (([decoded m] : List Event) = [.print c] ↔ Prints c) := by
    intro m e; subst e; rw [List.cons.injEq]; simpa using hdec
  unfold Phoenix.Input.Scalar at hs
  unfold utf8
  split
  · simp only [vtRun, vtStep]
    by_cases h27 : n = 27
    · rw [if_pos h27]
      simp only [List.append_nil, Prod.mk.injEq]
      constructor
      · intro e; cases e.1
      · intro e; unfold Prints at e; omega
    · rw [if_neg h27, if_pos (show n < 128 by omega)]
      simp only [List.append_nil, Prod.mk.injEq, true_and]
      exact hdec' n rfl
  · split
    · simp only [vtRun, vtStep]
      rw [if_neg (show ¬ (192 + n / 64 = 27) by omega), if_neg (show ¬ (192 + n / 64 < 128) by omega),
        if_neg (show ¬ (192 + n / 64 < 192) by omega), if_pos (show 192 + n / 64 < 224 by omega),
        if_neg (show ¬ (128 + n % 64 = 27) by omega)]
      simp only
      rw [if_pos (show 128 ≤ 128 + n % 64 ∧ 128 + n % 64 < 192 by omega), if_pos (by omega)]
      simp only [List.append_nil, List.nil_append, Prod.mk.injEq, true_and]
      exact hdec' _ (by omega)
    · split
      · simp only [vtRun, vtStep]
        rw [if_neg (show ¬ (224 + n / 4096 = 27) by omega), if_neg (show ¬ (224 + n / 4096 < 128) by omega),
          if_neg (show ¬ (224 + n / 4096 < 192) by omega), if_neg (show ¬ (224 + n / 4096 < 224) by omega),
          if_pos (show 224 + n / 4096 < 240 by omega), if_neg (show ¬ (128 + n / 64 % 64 = 27) by omega),
          if_neg (show ¬ (128 + n % 64 = 27) by omega)]
        simp only
        rw [if_pos (show 128 ≤ 128 + n / 64 % 64 ∧ 128 + n / 64 % 64 < 192 by omega), if_neg (by omega)]
        simp only
        rw [if_pos (show 128 ≤ 128 + n % 64 ∧ 128 + n % 64 < 192 by omega), if_pos (by omega)]
        simp only [List.append_nil, List.nil_append, Prod.mk.injEq, true_and]
        exact hdec' _ (by omega)
      · simp only [vtRun, vtStep]
        rw [if_neg (show ¬ (240 + n / 262144 = 27) by omega), if_neg (show ¬ (240 + n / 262144 < 128) by omega),
          if_neg (show ¬ (240 + n / 262144 < 192) by omega), if_neg (show ¬ (240 + n / 262144 < 224) by omega),
          if_neg (show ¬ (240 + n / 262144 < 240) by omega), if_neg (show ¬ (128 + n / 4096 % 64 = 27) by omega),
          if_neg (show ¬ (128 + n / 64 % 64 = 27) by omega), if_neg (show ¬ (128 + n % 64 = 27) by omega)]
        simp only
        rw [if_pos (show 128 ≤ 128 + n / 4096 % 64 ∧ 128 + n / 4096 % 64 < 192 by omega), if_neg (by omega)]
        simp only
        rw [if_pos (show 128 ≤ 128 + n / 64 % 64 ∧ 128 + n / 64 % 64 < 192 by omega), if_neg (by omega)]
        simp only
        rw [if_pos (show 128 ≤ 128 + n % 64 ∧ 128 + n % 64 < 192 by omega), if_pos (by omega)]
        simp only [List.append_nil, List.nil_append, Prod.mk.injEq, true_and]
        exact hdec' _ (by omega)

/-! ## C181: delivery -/

/-- The bytes a history is supposed to deliver: those of the failure-free renderer. -/
def promised (w h : Int) (ops : List ROp) : List Nat := encAll ((Renderer.new w h).run ops).2

/-- C181. On a device that reports no error every call returns nil, and when it returns, the device has everything
written so far: nothing stays in the buffer, and the bytes do not depend on the buffer size or the kind of device. -/
theorem C181_delivered (w h size : Int) (sw : Bool) (script : List (Option Nat)) (ops : List ROp)
    (hr : ∀ o ∈ script, o = none) :
    let z := (RendererIO.new w h size sw ⟨[], script⟩).run ops
    (∀ o ∈ z.2, o = true) ∧ z.1.io.b.dev.got = promised w h ops ∧ z.1.io.b.buf = [] := by
  rcases run_refines ops _ (idle_new w h size sw ⟨[], script⟩) with ⟨a1, a2, a3, _⟩ | ⟨_, _, _, a4⟩
  · refine ⟨a1, ?_, a2.empty⟩
    rw [a3]; rfl
  · exact absurd hr a4

/-- On any device: if every call returned nil, the device has exactly the promised bytes. -/
theorem C181_nil_means_delivered (w h size : Int) (sw : Bool) (script : List (Option Nat)) (ops : List ROp)
    (hall : ∀ o ∈ ((RendererIO.new w h size sw ⟨[], script⟩).run ops).2, o = true) :
    ((RendererIO.new w h size sw ⟨[], script⟩).run ops).1.io.b.dev.got = promised w h ops := by
  rcases run_refines ops _ (idle_new w h size sw ⟨[], script⟩) with ⟨_, _, a3, _⟩ | ⟨⟨o, ho, e⟩, _⟩
  · rw [a3]; rfl
  · rw [hall o ho] at e; cases e

/-- On any device, errors or not: what the device has is a prefix of the promised bytes; nothing is lost in the
middle, repeated or reordered. -/
theorem C181_prefix (w h size : Int) (sw : Bool) (script : List (Option Nat)) (ops : List ROp) :
    ((RendererIO.new w h size sw ⟨[], script⟩).run ops).1.io.b.dev.got <+: promised w h ops := by
  rcases run_refines ops _ (idle_new w h size sw ⟨[], script⟩) with ⟨_, _, a3, _⟩ | ⟨_, _, a3, _⟩
  · rw [a3]; exact List.prefix_refl _
  · exact a3

/-- Close after successful calls: it returns nil exactly if the show-cursor sequence was delivered too. -/
theorem C181_close (w h size : Int) (sw : Bool) (script : List (Option Nat)) (ops : List ROp)
    (hall : ∀ o ∈ ((RendererIO.new w h size sw ⟨[], script⟩).run ops).2, o = true) :
    let c := RendererIO.close ((RendererIO.new w h size sw ⟨[], script⟩).run ops).1
    (c.2 = true → c.1.io.b.dev.got = promised w h ops ++ [27, 91, 63, 50, 53, 104]) ∧
    ((∀ o ∈ script, o = none) → c.2 = true) := by
  rcases run_refines ops _ (idle_new w h size sw ⟨[], script⟩) with ⟨_, a2, a3, a4⟩ | ⟨⟨o, ho, e⟩, _⟩
  · generalize hz : ((RendererIO.new w h size sw ⟨[], script⟩).run ops).1 = z at *
    have hg : z.io.b.dev.got = promised w h ops := by rw [a3]; rfl
    have ec : RendererIO.close z = RendererIO.cursor .showCursor z := by
      unfold RendererIO.close RendererIO.cursor Act.seq
      rcases ((refines_emit .showCursor).live z.io a2.ok).1 with ⟨b1, _⟩ | ⟨b1, b2, _⟩
      · simp only at b1; rw [if_pos b1]
      · simp only at b1 b2
        rw [if_neg (by simp [b1])]
        have hf : WriterIO.flush (WriterIO.emit .showCursor z.io).1 = ((WriterIO.emit .showCursor z.io).1, false) := by
          simp [WriterIO.flush, flush_stuck b2]
        rw [hf]
    intro c
    show ((RendererIO.close z).2 = true → _) ∧ _
    simp only [c, hz, ec]
    rcases (refinesR_cursor .showCursor).live z a2 with ⟨b1, _, _, b4, _⟩ | ⟨b1, _, _, b4⟩
    · refine ⟨fun _ => ?_, fun _ => b1⟩
      rw [b4, hg]; rfl
    · refine ⟨fun e => ?_, fun hr => absurd (a4 hr) b4⟩
      rw [b1] at e; cases e
  · rw [hall o ho] at e; cases e

/-- A device that fails in its third Write, through a 4-byte buffer: the frame stops in the middle. -/
example : let z := (RendererIO.new 2 2 4 false ⟨[], [none, none, some 2]⟩).run wireOps
    z.2 = [true, false] ∧ z.1.io.b.dev.got = [27, 91, 63, 50, 53, 108, 97, 27] := by decide +kernel

/-! ## C182: after a write error -/

/-- The full claim: whatever went wrong before, a Render that returns nil has its buffer on the screen. -/
def C182_statement : Prop :=
  ∀ (wd : Char → Nat) (W H : Nat) (_ : 0 < W) (_ : 0 < H) (w h size : Int) (sw : Bool) (script : List (Option Nat))
    (ops : List ROp) (b : Buffer) (_ : ∀ b', ROp.render b' ∈ ops ++ [.render b] → Fits wd W H b' ∧ b'.Printing),
    ((RendererIO.new w h size sw ⟨[], script⟩).run (ops ++ [.render b])).2.getLast? = some true →
    ∀ x y : Nat, x < b.width → y < b.height →
    ((onScreen wd W H ((RendererIO.new w h size sw ⟨[], script⟩).run (ops ++ [.render b])).1.io.b.dev).scr x y).ch
      = (b.get x y).char

/-- Refuted: a frame "a" is shown, the write of Resize fails, a blank frame is rendered: Render finds no difference to
the blank buffer Resize has already installed, writes nothing and returns nil; the "a" stays. -/
theorem C182_nil_refuted : ¬ C182_statement := by
  intro h
  have := h (fun _ => 1) 1 1 (by decide) (by decide) 1 1 4096 true [none, some 0]
    [.render ⟨1, 1, [[⟨'a', {}, 1⟩]]⟩, .resize 1 1] ⟨1, 1, [[Cell.empty]]⟩ (by
      intro b hb
      simp only [List.cons_append, List.nil_append, List.mem_cons, List.not_mem_nil, or_false, ROp.render.injEq,
        reduceCtorEq, false_or] at hb
      rcases hb with rfl | rfl
      · refine ⟨⟨by decide, by decide, ?_⟩, ?_⟩
        · intro x y hx hy
          have hx : x < 1 := hx
          have hy : y < 1 := hy
          obtain rfl : x = 0 := by omega
          obtain rfl : y = 0 := by omega
          decide
        · intro x y hx hy
          have hx : x < 1 := hx
          have hy : y < 1 := hy
          obtain rfl : x = 0 := by omega
          obtain rfl : y = 0 := by omega
          unfold Prints; decide
      · refine ⟨⟨by decide, by decide, ?_⟩, ?_⟩
        · intro x y hx hy
          have hx : x < 1 := hx
          have hy : y < 1 := hy
          obtain rfl : x = 0 := by omega
          obtain rfl : y = 0 := by omega
          decide
        · intro x y hx hy
          have hx : x < 1 := hx
          have hy : y < 1 := hy
          obtain rfl : x = 0 := by omega
          obtain rfl : y = 0 := by omega
          unfold Prints; decide) (by decide +kernel) 0 0 (by decide) (by decide)
  revert this
  decide +kernel

/-- And one failed write is final: after a call that returned an error, no later call of any kind reaches the device
again, even if it would accept everything (the error of bufio.Writer is sticky and nothing resets it). -/
theorem C182_dead (w h size : Int) (sw : Bool) (script : List (Option Nat)) (ops : List ROp)
    (hbad : ∃ o ∈ ((RendererIO.new w h size sw ⟨[], script⟩).run ops).2, o = false) (more : List ROp) :
    (((RendererIO.new w h size sw ⟨[], script⟩).run ops).1.run more).1.io.b.dev =
      ((RendererIO.new w h size sw ⟨[], script⟩).run ops).1.io.b.dev := by
  rcases run_refines ops _ (idle_new w h size sw ⟨[], script⟩) with ⟨a1, _⟩ | ⟨_, a2, _⟩
  · obtain ⟨o, ho, e⟩ := hbad
    rw [a1 o ho] at e; cases e
  · rw [run_stuck _ _ a2]

/-- What holds after an error: a call that has something to write says so. Clear, Resize, HideCursor and ShowCursor
never return nil on a dead renderer, and a Render returns nil only if it had nothing to write. -/
theorem C182_reported_partial (w h size : Int) (sw : Bool) (script : List (Option Nat)) (ops : List ROp)
    (hbad : ∃ o ∈ ((RendererIO.new w h size sw ⟨[], script⟩).run ops).2, o = false) (op : ROp)
    (hnil : (RendererIO.step op ((RendererIO.new w h size sw ⟨[], script⟩).run ops).1).2 = true) :
    op = .renderNil ∨ (∃ b, op = .render b ∧
      (((RendererIO.new w h size sw ⟨[], script⟩).run ops).1.pure.render b).2 = []) := by
  rcases run_refines ops _ (idle_new w h size sw ⟨[], script⟩) with ⟨a1, _⟩ | ⟨_, a2, _⟩
  · obtain ⟨o, ho, e⟩ := hbad
    rw [a1 o ho] at e; cases e
  · generalize ((RendererIO.new w h size sw ⟨[], script⟩).run ops).1 = z at *
    have hem : ∀ k, WriterIO.emit k z.io = (z.io, false) := fun k => by simp [WriterIO.emit, writeString_stuck a2]
    have hseq : ∀ (k : Token) (a : Act WriterIO), Act.seq (WriterIO.emit k) a z.io = (z.io, false) := fun k a => by
      simp [Act.seq, hem]
    have hfull : ∀ b, (RendererIO.renderFull b z).2 = false := fun b => by simp [RendererIO.renderFull, fullIO, hseq]
    have hfl : ∀ s : WriterIO, s.b.err = true → (WriterIO.flush s).2 = false := fun s hs => by
      simp [WriterIO.flush, flush_stuck hs]
    cases op with
    | renderNil => exact .inl rfl
    | clear => simp [RendererIO.step, RendererIO.clear, hseq] at hnil
    | resize a b =>
      have : ∀ (k : Token) (a : Act WriterIO), Act.seq (WriterIO.emit k) a z.io = (z.io, false) := hseq
      simp [RendererIO.step, RendererIO.resize, RendererIO.clear, this] at hnil
    | hideCursor => simp [RendererIO.step, RendererIO.cursor, hseq] at hnil
    | showCursor => simp [RendererIO.step, RendererIO.cursor, hseq] at hnil
    | render b =>
      refine .inr ⟨b, rfl, ?_⟩
      simp only [RendererIO.step, RendererIO.render] at hnil
      have e1 : z.pure.width = z.width := rfl
      have e2 : z.pure.height = z.height := rfl
      have e3 : z.pure.prev = z.prev := rfl
      unfold Renderer.render
      rw [e1, e2, e3]
      by_cases h1 : (b.width : Int) ≠ z.width ∨ (b.height : Int) ≠ z.height
      · rw [if_pos h1, hfull] at hnil; cases hnil
      · rw [if_neg h1] at hnil ⊢
        by_cases h2 : (diff z.prev b).length = 0
        · simp only [if_pos h2]
        · rw [if_neg h2] at hnil
          exfalso
          split at hnil
          · rw [hfull] at hnil; cases hnil
          · have hst := (refines_applyOps (removeRedundant (diff z.prev b) z.io.w.style)).stuck z.io a2
            have : (Act.seq (applyOpsIO (removeRedundant (diff z.prev b) z.io.w.style)) WriterIO.flush z.io).2 = false := by
              unfold Act.seq
              split
              · exact hfl _ (by rw [hst]; exact a2)
              · rfl
            rw [if_neg (by simp [this])] at hnil
            cases hnil

end Phoenix.Render
