import Verif.Spec.Proxy
import Verif.Spec.TlsRecords

/-!
# The sockets of a connection with or without TLS
-/

namespace ImapFlow

variable {K : Type}

/-- The connection has no TLS, or its handshake is complete: nothing waits in it, and the peer has the key that fits
to the own one. -/
def Connected (paired : K → K → Prop) (tls : Option (Tls K)) : Prop :=
  ∀ t, tls = some t → (t.layer.Receives ∧ t.Ready) ∧ t.layer.Delivers paired ∧ t.sendable = [] ∧ ∃ kr, paired t.writeKey kr

/-- The bytes from the socket have this plaintext.  With TLS they consist of complete records, none of them
`close_notify`, and perhaps the beginning of another one. -/
def HoldsPlain (tls : Option (Tls K)) (bytes plain : Bytes) : Prop :=
  match tls with
  | none => plain = bytes
  | some t => ∃ records part cs k, t.raw ++ bytes = records ++ part ∧ t.layer.Carries t.readKey records cs k ∧
      RecordContent.closeNotify ∉ cs ∧ t.layer.unprotect k part = .incomplete ∧ plain = plaintext cs

/-- The bytes for the socket contain this plaintext and nothing else: the peer opens them to it. -/
def Sealed (paired : K → K → Prop) (tls : Option (Tls K)) (bytes plain : Bytes) : Prop :=
  match tls with
  | none => bytes = plain
  | some t => ∀ kr, paired t.writeKey kr → ∃ (ds : List Bytes) (kr' : K), t.layer.Carries kr bytes (ds.map .data) kr' ∧
      ds.flatten = plain

end ImapFlow
