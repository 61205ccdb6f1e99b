import Verif.Spec.ServerTrace
import Verif.Spec.ClientSamples

/-!
# Concrete server runs

Runs of a server with the toy codec, used beside the theorems to show that their hypotheses are met by
non-trivial histories.
-/

namespace ImapFlow.ServerSample

open ClientSample (str ln g of_map)

/-- Literals up to 4 bytes, commands up to 40 bytes. -/
def options : ServerOptions :=
  { crlfRelaxed := false, maxLiteralSize := 4, maxCommandSize := 40,
    literalAcceptCcr := .basic none (str "ok"), literalRejectCcr := .basic none (str "no") }

def greeting : Greeting := { kind := .ok, code := none, text := str "hi" }

/-- A command with two synchronizing literals, one with a non-synchronizing literal, a line with a bare
LF, an undecodable line, a command with a literal that is too long, a command that is too long, and
responses of the user in between. -/
def commandOps : List ServerOp :=
  [.next, .next, .enqueueInput (ln "A{xx"), .next, .next, .enqueueInput (str "\n" ++ str "\n"),
   .enqueueData (.other (str "d")), .next, .next, .enqueueInput (ln " {x"), .next, .next,
   .enqueueInput (str "z" ++ ln "" ++ ln "B{+xx" ++ ln "" ++ ln "" ++ str "C Cbad\n"), .next, .next,
   .enqueueStatus (.tagged (str "A") ⟨.ok, none, str "done"⟩), .next, .next, .next, .next,
   .enqueueInput (ln "?" ++ ln "D{xxxxx" ++ ln "E Cnew" ++ str "F Cthis command is longer than forty bytes" ++
     ln " and rejected" ++ str "G"),
   .next, .next, .next, .next, .next, .next, .next, .next]

/-- AUTHENTICATE with two rounds, IDLE accepted and ended, IDLE rejected; the methods are also called in
the wrong phases, and the client pipelines its input. -/
def authIdleOps : List ServerOp :=
  [.next, .next, .authenticateContinue (.basic none (str "x")),
   .enqueueInput (ln "A A" ++ ln "Dpw" ++ ln "A Cx" ++ ln "*" ++ ln "I I" ++ ln "D" ++ ln "J I"), .next,
   .idleAccept (.basic none (str "x")), .next, .authenticateContinue (.basic none (str "go")), .next, .next,
   .next, .next,
   .authenticateFinish (.tagged (str "A") ⟨.no, none, str "cancelled"⟩),
   .authenticateFinish (.tagged (str "A") ⟨.no, none, str "again"⟩), .next, .next,
   .next, .next, .idleReject (.tagged (str "I") ⟨.no, none, str "x"⟩), .next, .next, .next, .next,
   .idleAccept (.basic none (str "idling")), .idleAccept (.basic none (str "again")), .next, .next, .next,
   .enqueueInput (ln "D" ++ ln "K Cz"), .next, .next]

/-- A response of the user is queued while the continuation request for a literal is sent. -/
def queuedOps : List ServerOp :=
  [.next, .next, .enqueueInput (ln "A{xx"), .next, .enqueueData (.other (str "d")), .next, .next, .next]

/-- Commands up to 14 bytes, but literals up to 8 bytes. -/
def smallOptions : ServerOptions := { options with maxLiteralSize := 8, maxCommandSize := 14 }

/-- A literal whose content looks like a command after two bytes. -/
def smuggleOps : List ServerOp :=
  [.next, .next, .enqueueInput (ln "A{xxxxxxxx"), .next, .next,
   .enqueueInput (str "??" ++ ln "B Cz" ++ ln ""), .next, .next]

/-- The handles the server gives out. -/
def h (n : UInt64) : RawHandle := { generatorId := 7, handleId := n }

/-- The trace of `commandOps`. -/
def commandTrace : List SItem :=
  [.output (ln "Ghi"),
   .sent (.greetingSent greeting),
   .input (ln "A{xx"),
   .literal (ln "A{xx") [.response none (.continuationRequest (.basic none (str "ok")))],
   .output (ln "+ok"),
   .quiet,
   .starved,
   .input (str "\n\n"),
   .enqueue (h 0) (.data (.other (str "d"))),
   .output (ln "*d"),
   .sent (.responseSent (h 0) (.data (.other (str "d")))),
   .input (ln " {x"),
   .literal (str "A{xx\r\n\n\n {x\r\n") [.response none (.continuationRequest (.basic none (str "ok")))],
   .output (ln "+ok"),
   .quiet,
   .starved,
   .input (str "z\r\nB{+xx\r\n\r\n\r\nC Cbad\n"),
   .received (str "A{xx\r\n\n\n {x\r\nz\r\n") (.commandReceived ⟨str "A", .other (str "2\n\nz")⟩),
   .literal (ln "B{+xx") [],
   .received (str "B{+xx\r\n\r\n\r\n") (.commandReceived ⟨str "B", .other (ln "!")⟩),
   .enqueue (h 1) (.status (.tagged (str "A") ⟨.ok, none, str "done"⟩)),
   .output (ln "oA done"),
   .sent (.responseSent (h 1) (.status (.tagged (str "A") ⟨.ok, none, str "done"⟩))),
   .failed (.expectedCrlfGotLf (str "C Cbad\n")) [],
   .starved,
   .input (str "?\r\nD{xxxxx\r\nE Cnew\r\nF Cthis command is longer than forty bytes and rejected\r\nG"),
   .failed (.malformedMessage (ln "?")) [],
   .failed (.literalTooLong (ln "D{xxxxx")) [.response none (.status (.tagged (str "D") ⟨.bad, none, str "no"⟩))],
   .output (ln "bD no"),
   .quiet,
   .received (ln "E Cnew") (.commandReceived ⟨str "E", .other (str "new")⟩),
   .failed (.commandTooLong (str "F Cthis command is longer than forty byt")) [],
   .failed (.malformedMessage (ln "es and rejected")) [],
   .starved,
   .starved]

/-- The trace of `authIdleOps`. -/
def authIdleTrace : List SItem :=
  [.output (ln "Ghi"),
   .sent (.greetingSent greeting),
   .authContinue (.basic none (str "x")) (.error (.basic none (str "x"))),
   .input (str "A A\r\nDpw\r\nA Cx\r\n*\r\nI I\r\nD\r\nJ I\r\n"),
   .received (ln "A A") (.commandAuthenticateReceived ⟨str "A", .plain, none⟩),
   .idleAccept (.basic none (str "x")) (.error (.basic none (str "x"))),
   .received (ln "Dpw") (.authenticateDataReceived (.continue (str "pw"))),
   .authContinue (.basic none (str "go")) (.ok (h 0)),
   .output (ln "+go"),
   .sent (.responseSent (h 0) (.continuationRequest (.basic none (str "go")))),
   .failed (.malformedMessage (ln "A Cx")) [],
   .received (ln "*") (.authenticateDataReceived .cancel),
   .authFinish (.tagged (str "A") ⟨.no, none, str "cancelled"⟩) (.ok (h 1)),
   .authFinish (.tagged (str "A") ⟨.no, none, str "again"⟩) (.error (.tagged (str "A") ⟨.no, none, str "again"⟩)),
   .output (ln "nA cancelled"),
   .sent (.responseSent (h 1) (.status (.tagged (str "A") ⟨.no, none, str "cancelled"⟩))),
   .received (ln "I I") (.idleCommandReceived (str "I")),
   .starved,
   .idleReject (.tagged (str "I") ⟨.no, none, str "x"⟩) (.ok (h 2)),
   .output (ln "nI x"),
   .sent (.responseSent (h 2) (.status (.tagged (str "I") ⟨.no, none, str "x"⟩))),
   .failed (.malformedMessage (ln "D")) [],
   .received (ln "J I") (.idleCommandReceived (str "J")),
   .idleAccept (.basic none (str "idling")) (.ok (h 3)),
   .idleAccept (.basic none (str "again")) (.error (.basic none (str "again"))),
   .output (ln "+idling"),
   .sent (.responseSent (h 3) (.continuationRequest (.basic none (str "idling")))),
   .starved,
   .input (str "D\r\nK Cz\r\n"),
   .received (ln "D") .idleDoneReceived,
   .received (ln "K Cz") (.commandReceived ⟨str "K", .other (str "z")⟩)]

/-- The trace of `queuedOps`. -/
def queuedTrace : List SItem :=
  [.output (ln "Ghi"),
   .sent (.greetingSent greeting),
   .input (ln "A{xx"),
   .literal (ln "A{xx") [.response none (.continuationRequest (.basic none (str "ok")))],
   .output (ln "+ok"),
   .enqueue (h 0) (.data (.other (str "d"))),
   .quiet,
   .starved,
   .output (ln "*d"),
   .sent (.responseSent (h 0) (.data (.other (str "d"))))]

/-- The trace of `smuggleOps`. -/
def smuggleTrace : List SItem :=
  [.output (ln "Ghi"),
   .sent (.greetingSent greeting),
   .input (ln "A{xxxxxxxx"),
   .literal (ln "A{xxxxxxxx") [.response none (.continuationRequest (.basic none (str "ok")))],
   .output (ln "+ok"),
   .quiet,
   .starved,
   .input (str "??B Cz\r\n\r\n"),
   .failed (.commandTooLong (str "A{xxxxxxxx\r\n??")) [],
   .received (ln "B Cz") (.commandReceived ⟨str "B", .other (str "z")⟩)]

theorem command_run : ∃ s, (Server.new g options greeting).trace Toy.lib commandOps = .ok (s, commandTrace) :=
  of_map (by decide +kernel)

theorem authIdle_run : ∃ s, (Server.new g options greeting).trace Toy.lib authIdleOps = .ok (s, authIdleTrace) :=
  of_map (by decide +kernel)

theorem queued_run : ∃ s, (Server.new g options greeting).trace Toy.lib queuedOps = .ok (s, queuedTrace) :=
  of_map (by decide +kernel)

theorem smuggle_run : ∃ s, (Server.new g smallOptions greeting).trace Toy.lib smuggleOps = .ok (s, smuggleTrace) :=
  of_map (by decide +kernel)

end ImapFlow.ServerSample
