import Verif.Spec.Relay
import Verif.Spec.Rest
import Verif.Spec.StreamDialogue

/-!
# A dialogue between a client and a server through the proxy

`/repo/proxy/src/proxy.rs:220-376`: between the client and the server of `Verif.Spec.Dialogue` stands the proxy. The
client speaks with the server of the proxy (options `op`), the server speaks with the client of the proxy (options
`opc`). The users follow the protocol, as in `Verif.Spec.Dialogue`, and every message survives both connections.
-/

namespace ImapFlow

/-- What the users of the client (trace `A`) and of the server (trace `S`) have to respect. -/
structure RelayUsers (L : Lib) (oc opc : ClientOptions) (op os : ServerOptions) (gr : Greeting) (A : List CItem)
    (S : List SItem) : Prop where
  /-- the messages of the client are understood by the proxy -/
  near : FairClient L op A
  /-- the messages of the client are understood by the server -/
  far : FairClient L os A
  /-- the user of the server follows the protocol -/
  orderly : OrderlyServer S
  /-- the greeting is understood by the proxy, and its restriction by the client -/
  greeting : (ServerMessage.greeting gr).RoundTrip L opc ∧ (ServerMessage.greeting gr.restrict).RoundTrip L oc
  /-- the responses of the user of the server are understood by the proxy and by the client -/
  responses : ∀ h r, .response (some h) r ∈ serverMessages gr S →
    (ServerMessage.response (some h) r).RoundTrip L opc ∧ (ServerMessage.response (some h) r).RoundTrip L oc ∧
    (ServerMessage.response (some h) r.restrict).RoundTrip L oc
  /-- the continuation requests for literals are understood -/
  accepts : ∀ mode, (∀ m ∈ acceptReply L os mode, m.RoundTrip L opc) ∧ ∀ m ∈ acceptReply L op mode, m.RoundTrip L oc

/-- The calls that a stream and its user made on a client. -/
def clientOps (S : List (StreamItem ClientError ClientEvent ClientOp)) : List ClientOp :=
  S.filterMap fun
    | .user op => some op
    | .deliver b => some (.enqueueInput b)
    | .poll _ => some .next
    | _ => none

/-- The calls that a stream and its user made on a server. -/
def serverOps (S : List (StreamItem ServerError ServerEvent ServerOp)) : List ServerOp :=
  S.filterMap fun
    | .user op => some op
    | .deliver b => some (.enqueueInput b)
    | .poll _ => some .next
    | _ => none

end ImapFlow
