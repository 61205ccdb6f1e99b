import Verif.Spec.ProxySamples
import Verif.Spec.ProxyTls

/-!
# Concrete runs of the proxy with TLS on both connections
-/

namespace ImapFlow

namespace ProxyTlsSample

open ClientSample (str ln g)

/-- The connection to the client. -/
def tc : Tls Nat :=
  { layer := toyLayer, readSize := 2, limit := 40, readKey := 3, raw := [], plain := [], closed := false, writeKey := 7
    sendable := [] }

/-- The connection to the server; the beginning of a record was already received. -/
def ts : Tls Nat :=
  { layer := toyLayer, readSize := 5, limit := 50, readKey := 1, raw := [11], plain := [], closed := false, writeKey := 2
    sendable := [] }

theorem tc_connected : Connected (· = ·) (some tc) := by
  rintro _ ⟨⟩
  exact ⟨⟨toyLayer_receives, rfl, rfl, by decide, by decide⟩, toyLayer_delivers, rfl, _, rfl⟩

theorem ts_connected : Connected (· = ·) (some ts) := by
  rintro _ ⟨⟩
  exact ⟨⟨toyLayer_receives, rfl, rfl, by decide, by decide⟩, toyLayer_delivers, rfl, _, rfl⟩

/-- A run of the proxy. -/
def run (as : List ProxyAct) : Option (Proxy Nat × List ProxyItem) :=
  (Proxy.start (some tc) (some ts) g).run Toy.lib ProxySample.gs as

/-- A record of `toyLayer`. -/
def sealed (b : Bytes) : Bytes := UInt8.ofNat b.length :: b

/-- A command and its response, in pieces. -/
def talk : List ProxyAct :=
  [.server .poll, .server (.read (str "G[CRSQ]")), .server (.read (ln "hi")), .server .poll, .client .poll,
   .client (.write 3), .client (.write 15), .client .poll, .client (.read (sealed (str "A C") ++ [254, 3])),
   .client (.read (ln "z")), .server .poll, .server (.write 12), .server .poll,
   .server (.read (sealed (ln "oA done"))), .client .poll, .client (.write 5)]

/-- Then the client ends its connection. -/
def close : List ProxyAct := talk ++ [.client (.read [255])]

/-- Or the server does. -/
def serverClose : List ProxyAct := talk ++ [.server .poll, .server (.read [255])]

/-- Or a broken record arrives. -/
def garbled : List ProxyAct := talk ++ [.client (.read [253])]

/-- Or the TCP connection to the client is closed. -/
def eof : List ProxyAct := talk ++ [.client (.read [])]

/-- What is read from the client. -/
def fromClient : Bytes := sealed (str "A C") ++ [254, 3] ++ ln "z"

/-- What is read from the server. -/
def fromServer : Bytes := ln "G[CRSQ]hi" ++ sealed (ln "oA done")

/-- What is written to the server. -/
def toServer : Bytes := (ln "A Cz").flatMap fun b => [1, b]

theorem run_talk : ∃ c s T, run talk = some (.conversation c s, T) ∧ streamRead (clientSide T) = fromClient ∧
    streamRead (serverSide T) = fromServer ∧ streamWrote (serverSide T) = toServer ∧
    receivedCommands T = [⟨str "A", .other (str "z")⟩] ∧
    forwardedResponses T = [.status (.tagged (str "A") ⟨.ok, none, str "done"⟩)] := by
  have h : (run talk).map (fun x => ((ProxySample.stage x.1, streamRead (clientSide x.2), streamRead (serverSide x.2)),
      streamWrote (serverSide x.2), receivedCommands x.2, forwardedResponses x.2)) =
    some ((.conversation, fromClient, fromServer), toServer, [⟨str "A", .other (str "z")⟩],
      [.status (.tagged (str "A") ⟨.ok, none, str "done"⟩)]) := by decide +kernel
  obtain ⟨⟨p, T⟩, h1, h2⟩ := ProxySample.of_map h
  simp only [Prod.mk.injEq] at h2
  cases p with
  | conversation c s => exact ⟨c, s, T, h1, h2.1.2.1, h2.1.2.2, h2.2⟩
  | _ => cases h2.1.1

end ProxyTlsSample

end ImapFlow
