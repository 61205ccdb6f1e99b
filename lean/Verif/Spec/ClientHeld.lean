import Verif.Spec.ClientTrace
import Verif.Spec.StreamTrace

/-!
# What the user of a client wants to be sent
-/

namespace ImapFlow

/-- The number of bytes that a call asks to be sent. -/
def ClientOp.wants (L : Lib) : ClientOp → Nat
  | .enqueueCommand c => (wire (L.encodeCommand c)).length
  | .setAuthenticateData d => (wire (L.encodeAuthenticateData d)).length
  | .setIdleDone => (wire L.encodeIdleDone).length
  | .enqueueInput _ | .next => 0

/-- The number of bytes that the user asked to be sent. -/
def wanted (L : Lib) (S : List (StreamItem ClientError ClientEvent ClientOp)) : Nat :=
  (S.map fun
    | .user op => op.wants L
    | _ => 0).sum

end ImapFlow
