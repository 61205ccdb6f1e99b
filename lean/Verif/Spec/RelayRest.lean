import Verif.Spec.Relay
import Verif.Spec.StreamDialogue

/-!
# A client and a server whose users only wait, with the proxy between them

The steps that the system of `Spec/Relay.lean` makes while both users do nothing but call `next`.
-/

namespace ImapFlow

/-- The proxy polls the connection, some of the bytes on the way arrive, or the socket accepts some bytes. -/
def PollAct.Internal (wire : Bytes) : PollAct → Prop
  | .poll => True
  | .read k => 0 < k ∧ wire ≠ []
  | .write k => 0 < k
  | .fail => False

variable {K : Type}

/-- A step while both users only call `next`: none of the sockets fails or is closed, and no future is dropped by a
user. -/
def RelayAct.Internal (r : Relay K) : RelayAct → Prop
  | .client act => act.Internal r.proxyToClient
  | .proxyClient act => act.Internal r.clientToProxy
  | .proxyServer act => act.Internal r.serverToProxy
  | .server act => act.Internal r.proxyToServer

/-- None of the sockets of the proxy was closed or failed. -/
def RelayOpen (R : List RelayItem) : Prop :=
  (.proxy (.client (.read [])) ∉ R ∧ .proxy (.client (.wrote [])) ∉ R ∧ .proxy (.client .failed) ∉ R) ∧
  (.proxy (.server (.read [])) ∉ R ∧ .proxy (.server (.wrote [])) ∉ R ∧ .proxy (.server .failed) ∉ R)

/-- The system moves by itself; `g` is the handle generator of the proxy's server. -/
def Relay.Moves (L : Lib) (g : HandleGenerator) (r r' : Relay K) (I : List RelayItem) : Prop :=
  ∃ a : RelayAct, a.Internal r ∧ r.step L g a = some (r', I)

/-- The system moves by itself, several times. -/
inductive Relay.Unattended (L : Lib) (g : HandleGenerator) (r : Relay K) : Relay K → List RelayItem → Prop where
  | nil : Unattended L g r r []
  | snoc {r1 r2 : Relay K} {I I' : List RelayItem} : Unattended L g r r1 I → r1.Moves L g r2 I' →
      Unattended L g r r2 (I ++ I')

/-- Everyone waits for input, and none is on the way.  A proxy that has no greeting yet does not listen to the client, and
a proxy that has ended does not listen to anyone. -/
def Relay.AtRest (r : Relay K) : Prop :=
  (r.client.ctl = .at .reading ∧ r.proxyToClient = []) ∧ (r.server.ctl = .at .reading ∧ r.proxyToServer = []) ∧
  match r.proxy with
  | .conversation c s => (c.ctl = .at .reading ∧ r.clientToProxy = []) ∧ (s.ctl = .at .reading ∧ r.serverToProxy = [])
  | .greeting _ s => s.ctl = .at .reading ∧ r.serverToProxy = []
  | _ => True

end ImapFlow
