import Verif.Proofs.StreamShape

/-!
# What a stream does with its state
-/

namespace ImapFlow

variable {σ ε ev ι : Type}

/-- What `next` of a stream returns right after `next` of the state. -/
def returns : Except (Interrupt ε) ev → List (StreamItem ε ev ι)
  | .ok e => [.returned (.ok e)]
  | .error (.error e) => [.returned (.error (.state e))]
  | .error (.io _) => []

/-- The input is passed to the state; `s` becomes `s1`. -/
def Provides (M : Machine σ ε ev ι) (b : Bytes) (s s1 : σ) (D : List (StreamItem ε ev ι)) : Prop :=
  (b = [] ∧ s1 = s ∧ D = []) ∨ (b ≠ [] ∧ M.enqueueInput s b = .ok s1 ∧ D = [.deliver b])

/-- The item is neither a call on the state nor a result of `next`. -/
def StreamItem.Outside : StreamItem ε ev ι → Prop
  | .callNext | .callFlush | .read _ | .wrote _ | .failed | .flushed _ | .dropped => True
  | _ => False

end ImapFlow
