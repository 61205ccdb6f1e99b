import Verif.Spec.ProxySamples

/-!
# Peers that the proxy waits for while it listens to the other one
-/

namespace ImapFlow.ProxyHeldSample

open ClientSample (str ln g)
open ProxySample (run greet gs)

/-- The command that the client repeats. -/
def cmd : Command := { tag := [65], body := .other [122] }

/-- The data that the server repeats. -/
def data : Data := .other [100]

/-- A client sends `n + 1` commands; the server takes nothing. -/
def commands : Nat → List ProxyAct
  | 0 => greet ++ [.client .poll, .client (.read (ln "A Cz")), .server .poll]
  | n + 1 => commands n ++ [.client .poll, .client (.read (ln "A Cz")), .server .poll, .server .poll]

/-- A server sends `n + 1` responses; the client takes nothing but the greeting. -/
def responses : Nat → List ProxyAct
  | 0 => greet ++ [.server .poll, .server (.read (ln "*d")), .client .poll]
  | n + 1 => responses n ++ [.server .poll, .server (.read (ln "*d")), .client .poll, .client .poll]

/-- The proxy's client, with its generator and what it has to send. -/
def toServer (g : HandleGenerator) (sendState : ClientSendState) : Client :=
  { handleGenerator := g
    sendState
    receiveState := .response { crlfRelaxed := false, maxMessageSize := none, nextFragment := .line 0, seenBytes := 0, readBuffer := [] } }

/-- The command was handed out. -/
def sent (h : RawHandle) : ClientCurrent :=
  .command { handle := h, command := cmd, fragments := [], activity := .waitingForFragmentsSent none }

/-- The proxy's server, with its generator and what it has to send. -/
def toClient (g : HandleGenerator) (sendState : ServerSendState) : Server :=
  { options :=
      { crlfRelaxed := false
        maxLiteralSize := 26214400
        maxCommandSize := 26279936
        literalAcceptCcr := .basic none literalAcceptText
        literalRejectCcr := .basic none literalRejectText }
    handleGenerator := g
    sendState
    receiveState := .command
      { crlfRelaxed := false, maxMessageSize := some 26279936, nextFragment := .line 0, seenBytes := 0, readBuffer := [] } }

/-- What is known about a conversation whose connections have no TLS. -/
def parts : Proxy Nat → Option (Bytes × Bytes × Server × FullCtl × Bytes × Bytes × Client × FullCtl)
  | .conversation ⟨none, r, w, s, ctl⟩ ⟨none, r', w', c, ctl'⟩ => some (r, w, s, ctl, r', w', c, ctl')
  | _ => none

end ImapFlow.ProxyHeldSample
