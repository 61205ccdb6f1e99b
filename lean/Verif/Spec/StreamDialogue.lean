import Verif.Spec.StreamNet
import Verif.Spec.Dialogue

/-!
# Dialogues on streams, and streams whose users only wait

What the users get back from `next`, and the steps that the system of `Spec/StreamNet.lean` makes while both users do
nothing but call `next`.
-/

namespace ImapFlow

/-- The event reports a message of the client. -/
def ServerEvent.heard? : ServerEvent → Option ServerEvent
  | .greetingSent _ | .responseSent _ _ => none
  | e => some e

/-- The event reports an answer to AUTHENTICATE or IDLE. -/
def ClientEvent.answer? : ClientEvent → Option Answer
  | .authenticateContinuationRequestReceived _ q => some (.authenticateContinue q)
  | .authenticateStatusReceived _ _ st => some (.authenticateFinish st)
  | .idleAccepted _ q => some (.idleAccept q)
  | .idleRejected _ st => some (.idleReject st)
  | _ => none

/-! ## Without the users -/

/-- The user calls `next` again, some of the bytes on the way arrive, or the socket accepts some bytes. -/
def SideAct.Internal {ι : Type} (wire : Bytes) : SideAct ι → Prop
  | .callNext => True
  | .read k => 0 < k ∧ wire ≠ []
  | .write k => 0 < k
  | _ => False

variable {K : Type}

/-- A step while both users only call `next`: none of the sockets fails or is closed, and no future is dropped. -/
def StreamNetAct.Internal (n : StreamNet K) : StreamNetAct → Prop
  | .client act => act.Internal n.toClient
  | .server act => act.Internal n.toServer

/-- The system moves by itself. -/
def StreamNet.Moves (L : Lib) (n n' : StreamNet K) (G : List StreamNetItem) : Prop :=
  ∃ a : StreamNetAct, a.Internal n ∧ n.step L a = some (n', G)

/-- The system moves by itself, several times. -/
inductive StreamNet.Unattended (L : Lib) (n : StreamNet K) : StreamNet K → List StreamNetItem → Prop where
  | nil : Unattended L n n []
  | snoc {n1 n2 : StreamNet K} {G G' : List StreamNetItem} : Unattended L n n1 G → n1.Moves L n2 G' →
      Unattended L n n2 (G ++ G')

end ImapFlow
