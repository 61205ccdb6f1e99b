import Verif.Spec.ClientTrace
import Verif.Spec.Toy

/-!
# Concrete client runs

Runs of a client with the toy codec, used beside the theorems to show that their hypotheses are met by
non-trivial histories.
-/

namespace ImapFlow.ClientSample

/-- ASCII bytes of a string. -/
def str (s : String) : Bytes := s.toList.map fun c => UInt8.ofNat c.toNat

/-- A CRLF-terminated line. -/
def ln (s : String) : Bytes := str s ++ [13, 10]

def g : HandleGenerator := { generatorId := 7, nextHandleId := 0 }

/-- Two commands with a synchronizing literal (the first accepted, the second rejected) and one
without. -/
def literalOps : List ClientOp :=
  [.enqueueCommand ⟨str "A", .other (str "x\ny")⟩,
   .enqueueCommand ⟨str "B", .other (str "p\nq")⟩,
   .enqueueCommand ⟨str "C", .other (str "z")⟩,
   .next, .enqueueInput (ln "Ghi"), .next, .next, .next,
   .enqueueInput (ln "+ok" ++ str "*d"), .next, .next, .next, .next,
   .enqueueInput (ln "" ++ ln "nB wrong" ++ ln "bB no"), .next, .next, .next, .next, .next, .next]

/-- AUTHENTICATE with one round of data, then IDLE. -/
def authIdleOps : List ClientOp :=
  [.enqueueInput (ln "Ghi"), .next,
   .enqueueCommand ⟨str "A", .authenticate .plain none⟩,
   .enqueueCommand ⟨str "B", .idle⟩,
   .setAuthenticateData (.continue (str "early")), .next, .next,
   .enqueueInput (ln "+go"), .next,
   .setIdleDone,
   .setAuthenticateData (.continue (str "pw")),
   .setAuthenticateData (.continue (str "again")), .next, .next,
   .enqueueInput (ln "oA done"), .next, .next, .next, .setIdleDone,
   .enqueueInput (ln "+idling" ++ ln "*1"), .next, .next, .setIdleDone, .setIdleDone, .next, .next, .next]

/-- Malformed input: a bare LF line, an undecodable line, a response with a literal that contains LF. -/
def badOps : List ClientOp :=
  [.enqueueInput (ln "Ghi" ++ str "*bad\n" ++ ln "?" ++ ln "*{xx" ++ str "\n"), .next, .next, .next, .next,
   .enqueueInput (str "\n" ++ ln "" ++ str "*y"), .next, .next]

def hA : RawHandle := { generatorId := 7, handleId := 0 }
def hB : RawHandle := { generatorId := 7, handleId := 1 }
def hC : RawHandle := { generatorId := 7, handleId := 2 }
def cmdA : Command := ⟨str "A", .other (str "x\ny")⟩
def cmdB : Command := ⟨str "B", .other (str "p\nq")⟩
def cmdC : Command := ⟨str "C", .other (str "z")⟩
def authA : Command := ⟨str "A", .authenticate .plain none⟩
def idleB : Command := ⟨str "B", .idle⟩

/-- The trace of `literalOps`. -/
def literalTrace : List CItem :=
  [.enqueue hA cmdA, .enqueue hB cmdB, .enqueue hC cmdC, .starved, .input (ln "Ghi"),
   .received (ln "Ghi") (.greetingReceived ⟨.ok, none, str "hi"⟩),
   .output (ln "A{xxx"), .starved, .input (ln "+ok" ++ str "*d"),
   .released (ln "+ok"), .output (str "x\ny" ++ ln ""), .sent (.commandSent hA cmdA),
   .output (ln "B{xxx"), .starved, .input (ln "" ++ ln "nB wrong" ++ ln "bB no"),
   .received (ln "*d") (.dataReceived (.other (str "d"))),
   .received (ln "nB wrong") (.statusReceived (.tagged (str "B") ⟨.no, none, str "wrong"⟩)),
   .received (ln "bB no") (.commandRejected hB cmdB (.tagged (str "B") ⟨.bad, none, str "no"⟩)),
   .output (ln "C Cz"), .sent (.commandSent hC cmdC), .starved]

/-- The trace of `authIdleOps`. -/
def authIdleTrace : List CItem :=
  [.input (ln "Ghi"), .received (ln "Ghi") (.greetingReceived ⟨.ok, none, str "hi"⟩),
   .enqueue hA authA, .enqueue hB idleB,
   .setAuth (.continue (str "early")) (.error (.continue (str "early"))),
   .output (ln "A A"), .sent (.authenticateStarted hA), .input (ln "+go"),
   .received (ln "+go") (.authenticateContinuationRequestReceived hA (.basic none (str "go"))),
   .setDone none,
   .setAuth (.continue (str "pw")) (.ok hA),
   .setAuth (.continue (str "again")) (.error (.continue (str "again"))),
   .output (ln "Dpw"), .starved, .input (ln "oA done"),
   .received (ln "oA done")
     (.authenticateStatusReceived hA ⟨str "A", .plain, none⟩ (.tagged (str "A") ⟨.ok, none, str "done"⟩)),
   .output (ln "B I"), .sent (.idleCommandSent hB), .setDone none,
   .input (ln "+idling" ++ ln "*1"),
   .received (ln "+idling") (.idleAccepted hB (.basic none (str "idling"))),
   .received (ln "*1") (.dataReceived (.other (str "1"))),
   .setDone (some hB), .setDone none, .output (ln "D"), .sent (.idleDoneSent hB), .starved]

/-- The trace of `badOps` in strict mode. -/
def badTrace : List CItem :=
  [.input (ln "Ghi" ++ str "*bad\n" ++ ln "?" ++ ln "*{xx" ++ str "\n"),
   .received (ln "Ghi") (.greetingReceived ⟨.ok, none, str "hi"⟩),
   .failed (.expectedCrlfGotLf (str "*bad\n")), .failed (.malformedMessage (ln "?")), .starved,
   .input (str "\n" ++ ln "" ++ str "*y"),
   .received (ln "*{xx" ++ str "\n\n" ++ ln "") (.dataReceived (.other (str "\n\n"))), .starved]

/-- The trace of `badOps` in relaxed mode. -/
def relaxedTrace : List CItem :=
  [.input (ln "Ghi" ++ str "*bad\n" ++ ln "?" ++ ln "*{xx" ++ str "\n"),
   .received (ln "Ghi") (.greetingReceived ⟨.ok, none, str "hi"⟩),
   .received (str "*bad\n") (.dataReceived (.other (str "bad"))), .failed (.malformedMessage (ln "?")),
   .starved, .input (str "\n" ++ ln "" ++ str "*y"),
   .received (ln "*{xx" ++ str "\n\n" ++ ln "") (.dataReceived (.other (str "\n\n"))), .starved]

theorem of_map {ε α β : Type} {x : Except ε (α × β)} {b : β} (h : x.map (·.2) = .ok b) :
    ∃ a, x = .ok (a, b) := by
  cases x with
  | error e => cases h
  | ok y => obtain ⟨a, b'⟩ := y; cases h; exact ⟨a, rfl⟩

theorem literal_run : ∃ c, (Client.new g .default).trace Toy.lib literalOps = .ok (c, literalTrace) :=
  of_map (by decide +kernel)

theorem authIdle_run : ∃ c, (Client.new g .default).trace Toy.lib authIdleOps = .ok (c, authIdleTrace) :=
  of_map (by decide +kernel)

theorem bad_run : ∃ c, (Client.new g .default).trace Toy.lib badOps = .ok (c, badTrace) :=
  of_map (by decide +kernel)

theorem relaxed_run :
    ∃ c, (Client.new g { crlfRelaxed := true }).trace Toy.lib badOps = .ok (c, relaxedTrace) :=
  of_map (by decide +kernel)

end ImapFlow.ClientSample
