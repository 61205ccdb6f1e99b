import Verif.Spec.Examples
import Verif.Spec.StreamDialogue

/-!
# An example client and an example server that are connected to each other

Both programs (`Model/Examples.lean`) run, and a network transports what they write to their sockets, in any portions.
When one of the programs has ended, its socket is closed: then the other one reads the end of the file after the bytes that
are still on the way, or its socket fails.
-/

namespace ImapFlow

variable {K σ τ : Type}

/-- Both programs and what is on the way between them. -/
structure Session (K σ τ : Type) where
  client : Running K σ Client
  server : Running K τ Server
  /-- bytes on the way to the server -/
  toServer : Bytes
  /-- bytes on the way to the client -/
  toClient : Bytes

/-- What the network does with one of the programs. -/
inductive SocketAct where
  /-- the program calls `next`, and it is polled for the first time -/
  | poll
  /-- the pending read takes up to `n` bytes -/
  | read (n : Nat)
  /-- the pending write accepts the first `n` bytes -/
  | write (n : Nat)
  /-- the pending read or write fails -/
  | fail
  deriving DecidableEq, Repr

/-- The action of the program. -/
def SocketAct.toIo (wire : Bytes) : SocketAct → IoAct
  | .poll => .poll
  | .read n => .read (wire.take n)
  | .write n => .write n
  | .fail => .fail

/-- What remains on the way. -/
def SocketAct.rest (wire : Bytes) : SocketAct → Bytes
  | .read n => wire.drop n
  | _ => wire

/-- As long as the other program runs, a read waits for bytes, and nothing fails. -/
def SocketAct.possible (wire : Bytes) (other : Bool) : SocketAct → Bool
  | .poll => true
  | .read n => decide (0 < n) && (!wire.isEmpty || !other)
  | .write n => decide (0 < n)
  | .fail => !other

/-- The program has not ended. -/
def Running.isRunning {S : Type} : Running K σ S → Bool
  | .running _ _ => true
  | _ => false

/-- One step of one of the programs. -/
inductive SessionAct where
  | client (act : SocketAct)
  /-- `coin` is the next result of `rand::random()` -/
  | server (act : SocketAct) (coin : Bool)
  /-- the user of the client enters a line -/
  | clientLine (text : Bytes)
  /-- the user of the server enters a line -/
  | serverLine (text : Bytes)
  deriving DecidableEq, Repr

/-- What happened. -/
inductive SessionItem where
  | client (item : ProgramItem ClientError ClientEvent ClientOp)
  | server (item : ProgramItem ServerError ServerEvent ServerOp)

namespace Session

/-- A step of the client. -/
def clientDoes (L : Lib) (P : Program σ Client ClientEvent ClientOp) (s : Session K σ τ) (act : ProgramAct) (rest : Bytes) :
    Option (Session K σ τ × List SessionItem) :=
  match P.step (clientMachine L) s.client act with
  | none => none
  | some (client, items) =>
    some ({ s with client, toClient := rest, toServer := s.toServer ++ streamWrote (programStream items) }, items.map .client)

/-- A step of the server. -/
def serverDoes (L : Lib) (P : Program τ Server ServerEvent ServerOp) (s : Session K σ τ) (act : ProgramAct) (rest : Bytes) :
    Option (Session K σ τ × List SessionItem) :=
  match P.step (serverMachine L) s.server act with
  | none => none
  | some (server, items) =>
    some ({ s with server, toServer := rest, toClient := s.toClient ++ streamWrote (programStream items) }, items.map .server)

/-- A step; `none` if it is not possible. -/
def step (L : Lib) (P : Program σ Client ClientEvent ClientOp) (P' : Program τ Server ServerEvent ServerOp) (s : Session K σ τ) :
    SessionAct → Option (Session K σ τ × List SessionItem)
  | .client act =>
    if act.possible s.toClient s.server.isRunning then
      s.clientDoes L P (.io (act.toIo s.toClient) false) (act.rest s.toClient)
    else none
  | .server act coin =>
    if act.possible s.toServer s.client.isRunning then
      s.serverDoes L P' (.io (act.toIo s.toServer) coin) (act.rest s.toServer)
    else none
  | .clientLine text => s.clientDoes L P (.line text) s.toClient
  | .serverLine text => s.serverDoes L P' (.line text) s.toServer

/-- A run; `none` if some step is not possible. -/
def run (L : Lib) (P : Program σ Client ClientEvent ClientOp) (P' : Program τ Server ServerEvent ServerOp) (s : Session K σ τ) :
    List SessionAct → Option (Session K σ τ × List SessionItem)
  | [] => some (s, [])
  | a :: as =>
    match s.step L P P' a with
    | none => none
    | some (s, items) =>
      match run L P P' s as with
      | none => none
      | some (s, R) => some (s, items ++ R)

end Session

/-- What happened at the client. -/
def sessionClient (R : List SessionItem) : List (ProgramItem ClientError ClientEvent ClientOp) :=
  R.filterMap fun | .client i => some i | .server _ => none

/-- What happened at the server. -/
def sessionServer (R : List SessionItem) : List (ProgramItem ServerError ServerEvent ServerOp) :=
  R.filterMap fun | .server i => some i | .client _ => none

/-- A run of both programs, from their start. -/
def SessionRuns (L : Lib) (gc gs : HandleGenerator) (text : Text) (P : Program σ Client ClientEvent ClientOp)
    (P' : Program τ Server ServerEvent ServerOp) (as : List SessionAct) (s : Session K σ τ) (R : List SessionItem) : Prop :=
  ∃ server, Examples.startServer L P' gs text = .ok server ∧
    Session.run L P P' { client := Examples.startClient P gc, server, toServer := [], toClient := [] } as = some (s, R)

/-- Both programs wait for bytes, and nothing is on the way. -/
def Session.Waits (s : Session K σ τ) : Prop :=
  s.toServer = [] ∧ s.toClient = [] ∧ (∃ v c, s.client = .running v c ∧ c.ctl = .at .reading) ∧
    ∃ w d, s.server = .running w d ∧ d.ctl = .at .reading

/-- No step is possible unless a user enters a line. -/
def Session.Still (L : Lib) (P : Program σ Client ClientEvent ClientOp) (P' : Program τ Server ServerEvent ServerOp)
    (s : Session K σ τ) : Prop :=
  (∀ act, s.step L P P' (.client act) = none) ∧ ∀ act coin, s.step L P P' (.server act coin) = none

/-- An endless run of both programs: `f i` and `R i` are the state and what happened after the first `i` steps. -/
def SessionForever (L : Lib) (gc gs : HandleGenerator) (text : Text) (P : Program σ Client ClientEvent ClientOp)
    (P' : Program τ Server ServerEvent ServerOp) (a : Nat → SessionAct) (f : Nat → Session K σ τ) (R : Nat → List SessionItem) : Prop :=
  ∀ i, SessionRuns L gc gs text P P' ((List.range i).map a) (f i) (R i)

/-- The messages that the programs exchange are decoded to themselves: the greeting, the continuation requests for literals,
the commands and the data of the client, DONE, and what the server answers to a command with this tag. -/
structure Conversant (L : Lib) (o : ServerOptions) (text : Text) (commands : List Command) (datas : List AuthenticateData)
    (tag : Tag) (bodies : List StatusBody) (requests : List Text) (told : List Data) : Prop where
  greeting : (ServerMessage.greeting { kind := .ok, code := none, text }).RoundTrip L .default
  accepts : ∀ mode, ∀ m ∈ acceptReply L o mode, m.RoundTrip L .default
  commands : ∀ c ∈ commands, c.RoundTrip L o ∧ c.Fits L o
  datas : ∀ d ∈ datas, d.RoundTrip L o
  done : DoneRoundTrip L o
  bodies : ∀ b ∈ bodies, ∀ h, (ServerMessage.response h (.status (.tagged tag b))).RoundTrip L .default
  requests : ∀ t ∈ requests, ∀ q, L.ccrBasicFromStr none t = some q →
    ∀ h, (ServerMessage.response h (.continuationRequest q)).RoundTrip L .default
  told : ∀ d ∈ told, ∀ h, (ServerMessage.response h (.data d)).RoundTrip L .default

/-- The status of `server.rs`. -/
def noBody : StatusBody := { kind := .no, code := none, text := ascii "..." }

/-- The statuses of `server_authenticate.rs`. -/
def authBodies : List StatusBody :=
  [{ kind := .ok, code := none, text := ascii "Thanks, that's already enough!" }, { kind := .ok, code := none, text := ascii "Thanks!" },
   { kind := .no, code := none, text := ascii "Please use AUTHENTICATE" }]

/-- The continuation requests of `server_authenticate.rs`. -/
def authRequests : List Text := [ascii "I need more data...", ascii "...more..."]

/-- The user enters `expunge`. -/
def ProgramInput.isExpunge : ProgramInput ServerEvent → Bool
  | .line text => text = ascii "expunge"
  | .event _ => false

/-- DONE is received. -/
def ProgramInput.isDone : ProgramInput ServerEvent → Bool
  | .event .idleDoneReceived => true
  | _ => false

/-- What the server got before DONE. -/
def beforeDone (ins : List (ProgramInput ServerEvent)) : List (ProgramInput ServerEvent) := ins.takeWhile fun i => !i.isDone

/-- The statuses of `server_idle.rs`. -/
def idleBodies : List StatusBody := [{ kind := .ok, code := none, text := ascii "..." }, noBody]

end ImapFlow
