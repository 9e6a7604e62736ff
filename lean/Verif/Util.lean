/- Small helper lemmas used by several packages. -/
namespace Phoenix

/-- Induction from the end of a list. -/
theorem snocInd {α : Type _} {motive : List α → Prop} (nil : motive [])
    (append_singleton : ∀ l x, motive l → motive (l ++ [x])) (l : List α) : motive l := by
  have : ∀ n (l : List α), l.length = n → motive l := by
    intro n
    induction n with
    | zero => intro l h; rw [List.length_eq_zero_iff.1 h]; exact nil
    | succ n ih =>
      intro l h
      rcases List.eq_nil_or_concat l with rfl | ⟨l', x, rfl⟩
      · simp at h
      · rw [List.concat_eq_append]
        exact append_singleton _ _ (ih _ (by simpa using h))
  exact this _ l rfl

/-- The value that the last matching call of a history gives (`dflt` when there is none): the
specification of "the last setter wins". -/
def lastSaid {ω α : Type} (says : ω → Option α) (dflt : α) (ops : List ω) : α :=
  ((ops.filterMap says).getLast?).getD dflt

theorem foldl_last {σ ω α : Type} (step : σ → ω → σ) (π : σ → α) (says : ω → Option α)
    (h : ∀ s op, π (step s op) = (says op).getD (π s)) (ops : List ω) (s : σ) :
    π (ops.foldl step s) = lastSaid says (π s) ops := by
  induction ops generalizing s with
  | nil => rfl
  | cons op ops ih =>
    rw [List.foldl_cons, ih, h]
    unfold lastSaid
    cases hs : says op with
    | none => simp [List.filterMap_cons, hs]
    | some a => simp only [List.filterMap_cons, hs, List.getLast?_cons, Option.getD_some]

end Phoenix
