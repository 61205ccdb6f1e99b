import Verif.Model.Examples
import Verif.Spec.RelayDialogue
import Verif.Spec.FullTrace

/-!
# What happened in a run of an example program

Projections of the items of a run (`Model/Examples.lean`), and the contract about the fixed texts of the programs.
-/

namespace ImapFlow

/-- The texts of the example servers are texts, and where they are used in continuation requests they are not ambiguous. -/
structure Lib.Exemplary (L : Lib) : Prop where
  texts : ∀ t ∈ [Examples.serverText, Examples.serverIdleText, ascii "...", ascii "I need more data...",
    ascii "Thanks, that's already enough!", ascii "...more...", ascii "Thanks!", ascii "Please use AUTHENTICATE"],
    L.textValid t = true
  requests : ∀ t ∈ [ascii "...", ascii "I need more data...", ascii "...more..."], L.ccrBasicValid false t = true

section
variable {ε ev ι : Type}

/-- The item of the stream. -/
def ProgramItem.stream? : ProgramItem ε ev ι → Option (FullItem ε ev ι)
  | .stream i => some i
  | _ => none

/-- What happened between the stream, the client or server, and the program. -/
def programStream (T : List (ProgramItem ε ev ι)) : List (StreamItem ε ev ι) := streamPart (T.filterMap ProgramItem.stream?)

/-- The events that the program got. -/
def programEvents (T : List (ProgramItem ε ev ι)) : List ev := streamEvents (programStream T)

/-- The calls of the program. -/
def programCalls (T : List (ProgramItem ε ev ι)) : List ι := streamCalls (programStream T)

/-- What the program gets: an event from `next` or a line from the user. -/
inductive ProgramInput (ev : Type) where
  | event (e : ev)
  | line (text : Bytes)

/-- The event or the line. -/
def ProgramItem.input? : ProgramItem ε ev ι → Option (ProgramInput ev)
  | .stream (.stream (.returned (.ok e))) => some (.event e)
  | .line text => some (.line text)
  | _ => none

/-- The events and lines that the program got. -/
def programInputs (T : List (ProgramItem ε ev ι)) : List (ProgramInput ev) := T.filterMap ProgramItem.input?

/-- The input is a line. -/
def ProgramInput.isLine : ProgramInput ev → Bool
  | .line _ => true
  | .event _ => false

/-- No `unwrap` or `assert_eq!` of the program fails, except perhaps the `unwrap` of the result of `next`, and there is no
panic inside of `next`. -/
def NoPanic (T : List (ProgramItem ε ev ι)) : Prop :=
  (∀ p, .panicked p ∉ T) ∧ ∀ p, .stream (.stream (.panicked p)) ∉ T

/-- The program panics only if `next` returns an error. -/
def Running.Stands {K σ S : Type} (x : Running K σ S) (T : List (ProgramItem ε ev ι)) : Prop :=
  NoPanic T ∧ ((∃ e, .nextFailed e ∈ T) ↔ x = .dead)

end

/-! ## Clients -/

/-- A run of an example client, from its start. -/
def ClientRuns {K σ : Type} (L : Lib) (g : HandleGenerator) (P : Program σ Client ClientEvent ClientOp) (x : Running K σ Client)
    (T : List (ProgramItem ClientError ClientEvent ClientOp)) : Prop :=
  ∃ as, P.run (clientMachine L) (Examples.startClient P g) as = some (x, T)

/-- The first event reports the greeting, and no other event does. -/
def GreetedFirst (es : List ClientEvent) : Prop :=
  ∀ es1 e es2, es = es1 ++ e :: es2 → ((∃ g, e = .greetingReceived g) ↔ es1 = [])

/-- The server asks for authenticate data. -/
def ClientEvent.asksData : ClientEvent → Bool
  | .authenticateContinuationRequestReceived .. => true
  | _ => false

/-- The server has refused to idle, or DONE was sent. -/
def ClientEvent.endsIdle : ClientEvent → Bool
  | .idleRejected .. | .idleDoneSent .. => true
  | _ => false

/-- The events after the first one that ends the idling. -/
def afterIdle (es : List ClientEvent) : List ClientEvent := (es.dropWhile fun e => !e.endsIdle).tail

/-! ## Servers -/

/-- A run of an example server, from its start. -/
def ServerRuns {K σ : Type} (L : Lib) (g : HandleGenerator) (text : Text) (P : Program σ Server ServerEvent ServerOp)
    (x : Running K σ Server) (T : List (ProgramItem ServerError ServerEvent ServerOp)) : Prop :=
  ∃ x0 as, Examples.startServer L P g text = .ok x0 ∧ P.run (serverMachine L) x0 as = some (x, T)

/-- The first event reports the greeting as sent, and no other event does. -/
def GreetingSentFirst (greeting : Greeting) (es : List ServerEvent) : Prop :=
  ∀ es1 e es2, es = es1 ++ e :: es2 → (es1 = [] → e = .greetingSent greeting) ∧ (es1 ≠ [] → ∀ g, e ≠ .greetingSent g)

/-- The regular command that is reported. -/
def ServerEvent.regular? : ServerEvent → Option Command
  | .commandReceived command => some command
  | _ => none

/-- What the client asks of `server_authenticate.rs`. -/
inductive ServerAsk where
  | command (tag : Tag)
  | authenticate

/-- The event asks for an answer. -/
def ServerEvent.ask? : ServerEvent → Option ServerAsk
  | .commandReceived c => some (.command c.tag)
  | .commandAuthenticateReceived _ | .authenticateDataReceived _ => some .authenticate
  | _ => none

/-- A regular command is answered with NO, AUTHENTICATE and data with a request for more or with OK. -/
def ServerAsk.Answer : ServerAsk → ServerOp → Prop
  | .command tag, op =>
    op = .enqueueStatus (.tagged tag { kind := .no, code := none, text := ascii "Please use AUTHENTICATE" })
  | .authenticate, op => (∃ text, op = .authenticateContinue (.basic none text)) ∨
    ∃ tag text, op = .authenticateFinish (.tagged tag { kind := .ok, code := none, text })

/-- There is exactly one answer for each question, in order. -/
def Answered (asks : List ServerAsk) (ops : List ServerOp) : Prop :=
  asks.length = ops.length ∧ ∀ p ∈ asks.zip ops, p.1.Answer p.2

/-- What `server_idle.rs` does, if `idle` is the tag of the IDLE that has not ended: DONE is answered with OK, and the lines
`ok`, `no` and `expunge` accept IDLE, reject it, and send EXPUNGE. -/
def idleAnswer (expunge : Data) (idle : Option Tag) : ProgramInput ServerEvent → Option Tag × List ServerOp
  | .event (.idleCommandReceived tag) => (some tag, [])
  | .event .idleDoneReceived =>
    (none, idle.toList.map fun tag => .enqueueStatus (.tagged tag { kind := .ok, code := none, text := ascii "..." }))
  | .event _ => (idle, [])
  | .line text =>
    (idle,
      if text = ascii "ok" then [.idleAccept (.basic none (ascii "..."))]
      else if text = ascii "no" then
        idle.toList.map fun tag => .idleReject (.tagged tag { kind := .no, code := none, text := ascii "..." })
      else if text = ascii "expunge" then [.enqueueData expunge]
      else [])

/-- All of it. -/
def idleAnswers (expunge : Data) (ins : List (ProgramInput ServerEvent)) : Option Tag × List ServerOp :=
  ins.foldl (fun x i => ((idleAnswer expunge x.1 i).1, x.2 ++ (idleAnswer expunge x.1 i).2)) (none, [])

/-- A response is reported as sent. -/
def ServerEvent.isSent : ServerEvent → Bool
  | .greetingSent .. | .responseSent .. => true
  | _ => false

end ImapFlow
