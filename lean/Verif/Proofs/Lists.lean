/-!
# Auxiliary facts about lists
-/

namespace ImapFlow

/-- Induction from the end of a list. -/
theorem snocInduction {α : Type} {motive : List α → Prop} (nil : motive [])
    (snoc : ∀ T i, motive T → motive (T ++ [i])) (T : List α) : motive T := by
  rw [← List.reverse_reverse T]
  induction T.reverse with
  | nil => exact nil
  | cons i U ih => rw [List.reverse_cons]; exact snoc _ _ ih

end ImapFlow
