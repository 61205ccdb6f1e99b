import Verif.Model.FullStream
import Verif.Spec.ClientTrace
import Verif.Spec.ServerTrace
import Verif.Spec.StreamTrace

/-!
# What a stream with a server holds
-/

namespace ImapFlow

/-- IDLE waits for the decision of the user. -/
def Server.idleWaits (s : Server) : Bool :=
  match s.receiveState with
  | .idleAccept _ => true
  | _ => false

/-- No greeting and no response is encoded as nothing. -/
def Lib.Speaks (L : Lib) : Prop := (∀ g, wire (L.encodeGreeting g) ≠ []) ∧ ∀ r, wire (L.encodeResponse r) ≠ []

/-- The number of received bytes that wait to be decoded. -/
def FullStream.held {K : Type} (c : FullStream K Server) : Nat := c.readBuffer.length + c.state.buffer.length

/-- The number of bytes read by an action. -/
def StreamAct.given : StreamAct ServerOp → Nat
  | .read b => b.length
  | _ => 0

/-- In the run every `read` gives at most `N` bytes, none happens while output is written or IDLE waits, and the owner of the stream
gives no input to the server. -/
def FullStream.modest {K : Type} (L : Lib) (N : Nat) (c : FullStream K Server) : List (StreamAct ServerOp) → Bool
  | [] => true
  | a :: as =>
    (match a with
      | .read b => c.ctl == .at .reading && !c.state.idleWaits && decide (b.length ≤ N)
      | .user (.enqueueInput _) => false
      | _ => true) &&
    match c.step (serverMachine L) a with
    | none => true
    | some (c', _) => c'.modest L N as

end ImapFlow
