import Verif.Spec.StreamTrace

/-!
# IDLE that was not answered
-/

namespace ImapFlow

/-- IDLE was received, and since then the user of the server has called neither `idle_accept` nor `idle_reject`. -/
def IdleUnanswered (S : List (StreamItem ServerError ServerEvent ServerOp)) : Prop :=
  ∃ A tag B, S = A ++ .poll (.ok (.idleCommandReceived tag)) :: B ∧
    (∀ request, .user (.idleAccept request) ∉ B) ∧ ∀ status, .user (.idleReject status) ∉ B

end ImapFlow
