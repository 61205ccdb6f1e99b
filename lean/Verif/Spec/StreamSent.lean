import Verif.Spec.FullTrace
import Verif.Spec.ClientTrace
import Verif.Spec.ServerTrace

/-!
# Sent events of a stream

Which bytes an event reports as sent, and what a peer can read from the bytes on the socket.
-/

namespace ImapFlow

/-- The events that report that something was sent. -/
def ClientEvent.isSent : ClientEvent → Bool
  | .commandSent .. | .authenticateStarted _ | .idleCommandSent _ | .idleDoneSent _ => true
  | _ => false

/-- The event reports that the bytes, which belong to the given command, were sent. -/
inductive ClientEvent.Sends (L : Lib) : ClientEvent → RawHandle × Command → Bytes → Prop where
  | command (h : RawHandle) (cmd : Command) : Sends L (.commandSent h cmd) (h, cmd) (wire (L.encodeCommand cmd))
  | authenticate (h : RawHandle) (cmd : Command) : cmd.isAuthenticate = true →
      Sends L (.authenticateStarted h) (h, cmd) (wire (L.encodeCommand cmd))
  | idle (h : RawHandle) (cmd : Command) : cmd.isIdle = true →
      Sends L (.idleCommandSent h) (h, cmd) (wire (L.encodeCommand cmd))
  | done (h : RawHandle) (cmd : Command) : cmd.isIdle = true → Sends L (.idleDoneSent h) (h, cmd) (wire L.encodeIdleDone)

/-- The event reports that the bytes were sent. -/
inductive ServerEvent.Sends (L : Lib) : ServerEvent → Bytes → Prop where
  | greeting (g : Greeting) : Sends L (.greetingSent g) (wire (L.encodeGreeting g))
  | response (h : RawHandle) (r : Response) : Sends L (.responseSent h r) (wire (L.encodeResponse r))

/-- What a peer reads if these bytes are on the socket: without TLS the bytes, with TLS what it finds in the
records with a key that matches. -/
def Readable {K : Type} (paired : K → K → Prop) (tls : Option (Tls K)) (bytes plain : Bytes) : Prop :=
  match tls with
  | none => plain = bytes
  | some t => ∀ kr, paired t.writeKey kr →
      ∃ (ds : List Bytes) (kr' : K), t.layer.Carries kr bytes (ds.map .data) kr' ∧ ds.flatten = plain

/-- A new stream. -/
def FullStream.fresh {K σ : Type} (tls : Option (Tls K)) (state : σ) : FullStream K σ :=
  match tls with
  | none => .insecure state
  | some t => .secure t state

/-- The connection is ready to send, if TLS is used. -/
def ReadyToSend {K : Type} (paired : K → K → Prop) (tls : Option (Tls K)) : Prop :=
  ∀ t, tls = some t → t.layer.Delivers paired ∧ t.sendable = [] ∧ ∃ kr, paired t.writeKey kr

end ImapFlow
