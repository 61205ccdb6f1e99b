import Verif.Model.Stream
import Verif.Spec.ClientTrace
import Verif.Spec.ServerTrace

/-!
# Who makes which calls
-/

namespace ImapFlow

/-- The calls on the client. -/
def StreamItem.clientOp? : StreamItem ClientError ClientEvent ClientOp → Option ClientOp
  | .user op => some op
  | .deliver b => some (.enqueueInput b)
  | .poll _ => some .next
  | _ => none

/-- The calls on the client. -/
def streamClientOps (T : List (StreamItem ClientError ClientEvent ClientOp)) : List ClientOp :=
  T.filterMap StreamItem.clientOp?

/-- The owner of the client leaves `next` to the stream. -/
def StreamOwned (T : List (StreamItem ClientError ClientEvent ClientOp)) : Prop := .user .next ∉ T

/-- The owner of the server leaves `next` to the stream. -/
def StreamOwnedServer (T : List (StreamItem ServerError ServerEvent ServerOp)) : Prop := .user .next ∉ T

/-- The step of a client is not a call of its user (except `next`). -/
def CItem.Automatic : CItem → Prop
  | .enqueue .. | .setAuth .. | .setDone .. => False
  | _ => True

/-- The step of a server is not a call of its user (except `next`). -/
def SItem.Automatic : SItem → Prop
  | .enqueue .. | .authContinue .. | .authFinish .. | .idleAccept .. | .idleReject .. => False
  | _ => True

/-- A call that asks for more. -/
def ServerOp.isContinue : ServerOp → Bool
  | .authenticateContinue _ => true
  | _ => false

end ImapFlow
