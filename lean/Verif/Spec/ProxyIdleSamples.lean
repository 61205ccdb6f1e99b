import Verif.Spec.ProxyHeldSamples

/-!
# A client that sends IDLE and more, through the proxy
-/

namespace ImapFlow.ProxyIdleSample

open ClientSample (str ln g)
open ProxySample (greet gs)

/-- The client sends IDLE; the proxy passes it on, and the server does not answer.  Then the client sends `n` bytes. -/
def acts (n : Nat) : List ProxyAct :=
  greet ++ [.client .poll, .client (.read (ln "I I")), .server .poll, .server (.write 5), .server .poll, .client .poll] ++
    List.replicate n (.client (.read [120]))

/-- The server of the proxy while IDLE waits. -/
def waiting (b : Bytes) : Server :=
  { options :=
      { crlfRelaxed := false
        maxLiteralSize := 26214400
        maxCommandSize := 26279936
        literalAcceptCcr := .basic none literalAcceptText
        literalRejectCcr := .basic none literalRejectText }
    handleGenerator := gs
    sendState := { queuedMessages := [], currentMessage := none }
    receiveState := .idleAccept
      { crlfRelaxed := false, maxMessageSize := some 26279936, nextFragment := .line 0, seenBytes := 0, readBuffer := b } }

/-- The client of the proxy while the server does not answer. -/
def asking : Client :=
  { handleGenerator := { generatorId := 7, nextHandleId := 1 }
    sendState :=
      { queuedMessages := []
        currentMessage := some (.idle { handle := ⟨7, 0⟩, tag := str "I", activity := .waitingForIdleResponse }) }
    receiveState := .response { crlfRelaxed := false, maxMessageSize := none, nextFragment := .line 0, seenBytes := 0, readBuffer := [] } }

end ImapFlow.ProxyIdleSample
