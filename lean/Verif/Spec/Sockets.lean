import Verif.Spec.RelayRest

/-!
# Sockets that hold a limited number of bytes

In `Spec/StreamNet.lean` and `Spec/Relay.lean` any number of bytes can be on the way.  Here each direction has a capacity: a
socket accepts bytes only as long as what it accepted and what the other side has not read yet is not more than the
capacity.  Otherwise the write waits, as a write to a TCP socket with full buffers does.
-/

namespace ImapFlow

/-- What is written fits into the channel that holds these bytes already. -/
def SideAct.Fits {ι : Type} (channel : Bytes) (capacity : Nat) : SideAct ι → Prop
  | .write n => channel.length + n ≤ capacity
  | _ => True

/-- What is written fits into the channel that holds these bytes already. -/
def PollAct.Fits (channel : Bytes) (capacity : Nat) : PollAct → Prop
  | .write n => channel.length + n ≤ capacity
  | _ => True

variable {K : Type}

/-! ## Two streams -/

/-- The capacities of the channels to the server and to the client. -/
structure Capacities where
  toServer : Nat
  toClient : Nat

/-- What is written fits. -/
def StreamNetAct.Fits (k : Capacities) (n : StreamNet K) : StreamNetAct → Prop
  | .client act => act.Fits n.toServer k.toServer
  | .server act => act.Fits n.toClient k.toClient

instance {ι : Type} (channel : Bytes) (k : Nat) (act : SideAct ι) : Decidable (act.Fits channel k) := by
  cases act <;> (unfold SideAct.Fits; infer_instance)

instance (k : Capacities) (n : StreamNet K) (a : StreamNetAct) : Decidable (a.Fits k n) := by
  cases a <;> (unfold StreamNetAct.Fits; infer_instance)

/-- A run within the capacities. -/
def StreamNet.runWithin (L : Lib) (k : Capacities)
    (n : StreamNet K) : List StreamNetAct → Option (StreamNet K × List StreamNetItem)
  | [] => some (n, [])
  | a :: as =>
    if a.Fits k n then
      match n.step L a with
      | none => none
      | some (n, G) =>
        match runWithin L k n as with
        | none => none
        | some (n, G') => some (n, G ++ G')
    else none

/-- The system moves by itself within the capacities. -/
def StreamNet.MovesWithin (L : Lib) (k : Capacities) (n n' : StreamNet K) (G : List StreamNetItem) : Prop :=
  ∃ a : StreamNetAct, a.Internal n ∧ a.Fits k n ∧ n.step L a = some (n', G)

/-- The system moves by itself within the capacities, several times. -/
inductive StreamNet.UnattendedWithin (L : Lib) (k : Capacities) (n : StreamNet K) :
    StreamNet K → List StreamNetItem → Prop where
  | nil : UnattendedWithin L k n n []
  | snoc {n1 n2 : StreamNet K} {G G' : List StreamNetItem} : UnattendedWithin L k n n1 G → n1.MovesWithin L k n2 G' →
      UnattendedWithin L k n n2 (G ++ G')

/-! ## With the proxy between them -/

/-- The capacities of the channels between client, proxy and server. -/
structure RelayCapacities where
  clientToProxy : Nat
  proxyToClient : Nat
  proxyToServer : Nat
  serverToProxy : Nat

/-- What is written fits. -/
def RelayAct.Fits (k : RelayCapacities) (r : Relay K) : RelayAct → Prop
  | .client act => act.Fits r.clientToProxy k.clientToProxy
  | .proxyClient act => act.Fits r.proxyToClient k.proxyToClient
  | .proxyServer act => act.Fits r.proxyToServer k.proxyToServer
  | .server act => act.Fits r.serverToProxy k.serverToProxy

instance (channel : Bytes) (k : Nat) (act : PollAct) : Decidable (act.Fits channel k) := by
  cases act <;> (unfold PollAct.Fits; infer_instance)

instance (k : RelayCapacities) (r : Relay K) (a : RelayAct) : Decidable (a.Fits k r) := by
  cases a <;> (unfold RelayAct.Fits; infer_instance)

/-- The system moves by itself within the capacities. -/
def Relay.MovesWithin (L : Lib) (g : HandleGenerator) (k : RelayCapacities) (r r' : Relay K) (I : List RelayItem) : Prop :=
  ∃ a : RelayAct, a.Internal r ∧ a.Fits k r ∧ r.step L g a = some (r', I)

/-- The system moves by itself within the capacities, several times. -/
inductive Relay.UnattendedWithin (L : Lib) (g : HandleGenerator) (k : RelayCapacities) (r : Relay K) :
    Relay K → List RelayItem → Prop where
  | nil : UnattendedWithin L g k r r []
  | snoc {r1 r2 : Relay K} {I I' : List RelayItem} : UnattendedWithin L g k r r1 I → r1.MovesWithin L g k r2 I' →
      UnattendedWithin L g k r r2 (I ++ I')

end ImapFlow
