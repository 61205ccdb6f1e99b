import Verif.Spec.FullTrace
import Verif.Spec.StreamTrace

/-!
# What explains a result of `next` of a stream with or without TLS
-/

namespace ImapFlow

variable {ε ev ι : Type}

/-- What must have happened immediately before `next` returned: as without TLS (`StreamItem.Explains`), and an I/O
error is also returned if rustls refused the plaintext. -/
def FullItem.Explains (b : FullItem ε ev ι) (r : Except (StreamError ε) ev) : Prop :=
  (∃ i, b = .stream i ∧ i.Explains r) ∨ (b = .refused ∧ r = .error .io)

end ImapFlow
