import Verif.Spec.Net

/-!
# Dialogues: AUTHENTICATE and IDLE between a client and a server

What the client has said and what the server has heard, what the user of the server has answered and what
the client has understood.  Everything here is read off the two traces; it does not look into the client
or the server.
-/

namespace ImapFlow

/-! ## From the client to the server -/

/-- What the client has said in the course of a command that ended. -/
def saidEnded (p : (RawHandle × Command) × ClientEnded) : List ServerEvent :=
  p.1.2.event :: p.2.datas.map .authenticateDataReceived ++
    if p.2.event = .idleDoneSent p.1.1 then [.idleDoneReceived] else []

/-- What the client has said in the course of the command in progress. -/
def ClientView.saidNow (v : ClientView) (x : RawHandle × Command) : List ServerEvent :=
  x.2.event :: v.datas.map .authenticateDataReceived ++ if v.doneSet then [.idleDoneReceived] else []

/-- Everything the client has said: its commands in the order of enqueueing, each followed by the data the
user supplied and by DONE if the user asked for it. -/
def ClientView.said (v : ClientView) : List ServerEvent :=
  (v.enqueued.zip v.ended).flatMap saidEnded ++
    match v.current with
    | some x => v.saidNow x
    | none => []

/-- The message reported to the user of the server. -/
def SItem.heard? : SItem → Option ServerEvent
  | .received _ e => some e
  | _ => none

/-- Everything the server has heard. -/
def serverHeard (S : List SItem) : List ServerEvent := S.filterMap SItem.heard?

/-! ## From the user of the server to the client -/

/-- An answer to AUTHENTICATE or IDLE. -/
inductive Answer where
  | authenticateContinue (request : ContinuationRequest)
  | authenticateFinish (status : Status)
  | idleAccept (request : ContinuationRequest)
  | idleReject (status : Status)
  deriving DecidableEq, Repr

/-- The answer of the user of the server. -/
def SItem.answer? : SItem → Option Answer
  | .authContinue q (.ok _) => some (.authenticateContinue q)
  | .authFinish st (.ok _) => some (.authenticateFinish st)
  | .idleAccept q (.ok _) => some (.idleAccept q)
  | .idleReject st (.ok _) => some (.idleReject st)
  | _ => none

/-- All answers of the user of the server. -/
def serverAnswers (S : List SItem) : List Answer := S.filterMap SItem.answer?

/-- The answer reported to the user of the client. -/
def CItem.answer? : CItem → Option Answer
  | .received _ (.authenticateContinuationRequestReceived _ q) => some (.authenticateContinue q)
  | .received _ (.authenticateStatusReceived _ _ st) => some (.authenticateFinish st)
  | .received _ (.idleAccepted _ q) => some (.idleAccept q)
  | .received _ (.idleRejected _ st) => some (.idleReject st)
  | _ => none

/-- All answers the client has understood. -/
def clientAnswers (A : List CItem) : List Answer := A.filterMap CItem.answer?

/-! ## The dialogue as the user of the server sees it -/

/-- The bookkeeping of the user of the server. -/
structure ServerDialogue where
  /-- the tag of the AUTHENTICATE or IDLE in progress -/
  running : Option Tag
  /-- the continuation requests of the AUTHENTICATE in progress that were not answered with data -/
  asked : Nat
  /-- the tags of all regular commands, and of all IDLE commands that were ended by DONE -/
  completed : List Tag
  deriving DecidableEq, Repr

/-- Bookkeeping of one step. -/
def ServerDialogue.observe (d : ServerDialogue) : SItem → ServerDialogue
  | .received _ (.commandReceived c) => { d with completed := d.completed ++ [c.tag] }
  | .received _ (.commandAuthenticateReceived ca) => { d with running := some ca.tag, asked := 0 }
  | .received _ (.authenticateDataReceived _) => { d with asked := d.asked - 1 }
  | .received _ (.idleCommandReceived tag) => { d with running := some tag }
  | .received _ .idleDoneReceived => { d with running := none, completed := d.completed ++ d.running.toList }
  | .authContinue _ (.ok _) => { d with asked := d.asked + 1 }
  | .authFinish _ (.ok _) => { d with running := none }
  | .idleReject _ (.ok _) => { d with running := none }
  | _ => d

/-- The bookkeeping after a trace. -/
def serverDialogue (S : List SItem) : ServerDialogue :=
  S.foldl ServerDialogue.observe { running := none, asked := 0, completed := [] }

/-- The user of the server follows the protocol in one step: continuation requests only as answers to
AUTHENTICATE and IDLE; one continuation request of AUTHENTICATE at a time; the end of AUTHENTICATE only when
no data is outstanding; the tags fit. -/
def ServerDialogue.Allows (d : ServerDialogue) : SItem → Prop
  | .enqueue _ (.continuationRequest _) => False
  | .enqueue _ (.status (.tagged tag _)) => tag ∈ d.completed
  | .authContinue _ (.ok _) => d.asked = 0
  | .authFinish st (.ok _) => d.asked = 0 ∧ ∃ tag body, d.running = some tag ∧ st = .tagged tag body
  | .idleReject st (.ok _) => ∃ tag body, d.running = some tag ∧ st = .tagged tag body
  | _ => True

/-- The user of the server follows the protocol. -/
def OrderlyServer (S : List SItem) : Prop :=
  ∀ S1 i S2, S = S1 ++ i :: S2 → (serverDialogue S1).Allows i

/-! ## The messages of the client are decoded to themselves -/

/-- The commands respect the limits of the server, are decoded to themselves and have different tags. -/
structure FairCommands (L : Lib) (o : ServerOptions) (E : List (RawHandle × Command)) : Prop where
  roundTrip : ∀ x ∈ E, x.2.RoundTrip L o
  fits : ∀ x ∈ E, x.2.Fits L o
  tags : (E.map fun x => x.2.tag).Nodup

/-- The authenticate data supplied by the user. -/
def CItem.data? : CItem → Option AuthenticateData
  | .setAuth d (.ok _) => some d
  | _ => none

/-- The line of the data respects the limit of the server and is decoded to the same data. -/
def AuthenticateData.RoundTrip (L : Lib) (o : ServerOptions) (d : AuthenticateData) : Prop :=
  IsMessage (authenticateFraming L o) (wire (L.encodeAuthenticateData d)) d ∧
  (wire (L.encodeAuthenticateData d)).length ≤ o.maxCommandSize

/-- DONE respects the limit of the server and is decoded to itself. -/
def DoneRoundTrip (L : Lib) (o : ServerOptions) : Prop :=
  IsMessage (idleFraming L o) (wire L.encodeIdleDone) () ∧ (wire L.encodeIdleDone).length ≤ o.maxCommandSize

/-- All messages of the client are decoded to themselves by the server. -/
structure FairClient (L : Lib) (o : ServerOptions) (A : List CItem) : Prop where
  commands : FairCommands L o (clientEnqueued A)
  datas : ∀ d ∈ A.filterMap CItem.data?, d.RoundTrip L o
  done : DoneRoundTrip L o

/-! ## Whose turn it is -/

/-- What client and server wait for when nothing moves. -/
inductive Turn (v : ClientView) (p : ServerPhase) (d : ServerDialogue) : Prop
  /-- everything was said; the user of the client may enqueue a command -/
  | idle : v.current = none → v.remaining = [] → p = .command → d.running = none → Turn v p d
  /-- the user of the server has to continue or finish AUTHENTICATE -/
  | authenticateServer (h : RawHandle) (c : Command) : v.current = some (h, c) → c.isAuthenticate = true →
      p = .authenticate → d.running = some c.tag → d.asked = 0 → v.asked = v.datas.length → Turn v p d
  /-- the user of the client has to supply authenticate data -/
  | authenticateClient (h : RawHandle) (c : Command) : v.current = some (h, c) → c.isAuthenticate = true →
      p = .authenticate → d.running = some c.tag → d.asked = 1 → v.asked = v.datas.length + 1 → Turn v p d
  /-- the user of the server has to accept or reject IDLE -/
  | idleServer (h : RawHandle) (c : Command) : v.current = some (h, c) → c.isIdle = true →
      p = .idlePending → d.running = some c.tag → v.accepted = false → Turn v p d
  /-- the user of the client may end IDLE -/
  | idleClient (h : RawHandle) (c : Command) : v.current = some (h, c) → c.isIdle = true →
      p = .idle → d.running = some c.tag → v.accepted = true → v.doneSet = false → Turn v p d

end ImapFlow
