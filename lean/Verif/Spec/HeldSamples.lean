import Verif.Spec.Held
import Verif.Spec.ServerSamples

/-!
# A client that makes a server hold more and more bytes
-/

namespace ImapFlow.HeldSample

open ClientSample (str ln g)

def start : FullStream Nat Server := .insecure (Server.new g ServerSample.options ServerSample.greeting)

/-- The greeting is sent. -/
def greet : List (StreamAct ServerOp) := [.callNext, .write 5, .callNext]

/-- The user does not answer to IDLE but calls `next`, while the client sends more and more bytes. -/
def idleActs (n : Nat) : List (StreamAct ServerOp) :=
  greet ++ [.read (ln "I I"), .callNext] ++ List.replicate n (.read [120])

/-- The user calls `next` again whenever it returns; the client announces literals that are too long, and reads nothing. -/
def rejectActs : Nat → List (StreamAct ServerOp)
  | 0 => greet
  | n + 1 => rejectActs n ++ [.read (ln "D{xxxxx"), .callNext]

/-- The client sends a command in parts, then IDLE and the beginning of another command; the user accepts IDLE at once. -/
def modestActs : List (StreamAct ServerOp) :=
  greet ++ [.read (str "A C"), .read (ln "z" ++ str "I I"), .callNext, .read (ln ""), .user (.idleAccept (.basic none (str "go"))),
    .callNext, .write 5, .callNext, .read (ln "D" ++ str "B C"), .callNext]

/-- The response to a literal that is too long. -/
def bad : ServerMessage := .response none (.status (.tagged (str "D") ⟨.bad, none, str "no"⟩))

/-- The server while that response is sent. -/
def answering : Server :=
  { options := ServerSample.options
    handleGenerator := g
    sendState := { queuedMessages := [], currentMessage := some bad }
    receiveState := .command (.new false (some 40)) }

/-- The server while IDLE waits and `b` is held. -/
def idling (b : Bytes) : Server :=
  { options := ServerSample.options
    handleGenerator := g
    sendState := .new
    receiveState := .idleAccept { (ReceiveState.new false (some 40)) with readBuffer := b } }

end ImapFlow.HeldSample
