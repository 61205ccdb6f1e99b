import Verif.Spec.ClientHistory
import Verif.Spec.Framing
import Verif.Spec.Codec

/-!
# Traces of a client

A trace refines a history (`Spec/ClientHistory.lean`): it additionally shows which bytes a received
message occupied on the wire, and the continuation requests that release a literal (which `next`
handles silently).  `erase` forgets both; `Client.trace_erase` (in `Proofs/ClientTrace.lean`) states
that erasing the trace gives exactly the history.

`ClientView` is the bookkeeping of an outside observer of a trace; it does not look into the client.
-/

namespace ImapFlow

/-- One observable step of a client. -/
inductive CItem where
  /-- `enqueue_command` -/
  | enqueue (handle : RawHandle) (command : Command)
  /-- `enqueue_input` -/
  | input (bytes : Bytes)
  /-- `set_authenticate_data` with its result -/
  | setAuth (data : AuthenticateData) (result : Except AuthenticateData RawHandle)
  /-- `set_idle_done` with its result -/
  | setDone (result : Option RawHandle)
  /-- `next` returned `Output(bytes)` -/
  | output (bytes : Bytes)
  /-- `next` returned an event of the sending side -/
  | sent (event : ClientEvent)
  /-- `next` returned an event of the receiving side; `bytes` are the bytes of the message -/
  | received (bytes : Bytes) (event : ClientEvent)
  /-- inside `next`: a continuation request occupying `bytes` released a literal -/
  | released (bytes : Bytes)
  /-- `next` returned an error -/
  | failed (error : ClientError)
  /-- `next` returned `NeedMoreInput` -/
  | starved
  deriving DecidableEq, Repr

/-- The history of a trace. -/
def CItem.erase : CItem → Option ClientObs
  | .enqueue h c => some (.enqueued h c)
  | .input b => some (.input b)
  | .setAuth d r => some (.setAuthenticateData d r)
  | .setDone r => some (.setIdleDone r)
  | .output b => some (.next (.error (.io (.output b))))
  | .sent e => some (.next (.ok e))
  | .received _ e => some (.next (.ok e))
  | .released _ => none
  | .failed e => some (.next (.error (.error e)))
  | .starved => some (.next (.error (.io .needMoreInput)))

/-- The receive buffer of a client. -/
def Client.buffer (c : Client) : Bytes :=
  match c.receiveState with
  | .greeting s => s.readBuffer
  | .response s => s.readBuffer
  | .dummy => []

/-- The bytes that left the buffer between two states. -/
def Client.consumed (before after : Client) : Bytes :=
  before.buffer.take (before.buffer.length - after.buffer.length)

/-- `Client::next` that records its steps.  Same structure as `Client.next`. -/
def Client.nextTrace (L : Lib) (c : Client) : Except Panic (Client × List CItem) :=
  match _hs : progressSend L c with
  | .error p => .error p
  | .ok (c1, .error (.io (.output b))) => .ok (c1, [.output b])
  | .ok (c1, .error (.io .needMoreInput)) => .ok (c1, [.starved])
  | .ok (c1, .error (.error e)) => .ok (c1, [.failed e])
  | .ok (c1, .ok (some event)) => .ok (c1, [.sent event])
  | .ok (c1, .ok none) =>
    match _hr : progressReceive L c1 with
    | .error p => .error p
    | .ok (c2, .error (.io (.output b))) => .ok (c2, [.output b])
    | .ok (c2, .error (.io .needMoreInput)) => .ok (c2, [.starved])
    | .ok (c2, .error (.error e)) => .ok (c2, [.failed e])
    | .ok (c2, .ok (some event)) => .ok (c2, [.received (consumed c1 c2) event])
    | .ok (c2, .ok none) =>
      match Client.nextTrace L c2 with
      | .error p => .error p
      | .ok (c3, items) => .ok (c3, .released (consumed c1 c2) :: items)
termination_by c.unread
decreasing_by
  have h1 := Client.progressSend_unread _hs
  have h2 := Client.progressReceive_unread _hr
  have h3 : c1.unread = c.unread := by simp [Client.unread, h1]
  omega

/-- One call with its trace. -/
def Client.callTrace (L : Lib) (c : Client) : ClientOp → Except Panic (Client × List CItem)
  | .enqueueCommand command =>
    let (c, handle) := c.enqueueCommand command
    .ok (c, [.enqueue handle command])
  | .enqueueInput bytes => (c.enqueueInput bytes).map fun c => (c, [.input bytes])
  | .next => c.nextTrace L
  | .setAuthenticateData data =>
    (c.setAuthenticateData L data).map fun (c, r) => (c, [.setAuth data r])
  | .setIdleDone => (c.setIdleDone L).map fun (c, r) => (c, [.setDone r])

/-- The trace of a list of calls; stops at a panic. -/
def Client.trace (L : Lib) (c : Client) : List ClientOp → Except Panic (Client × List CItem)
  | [] => .ok (c, [])
  | op :: ops =>
    match c.callTrace L op with
    | .error p => .error p
    | .ok (c, items) =>
      match Client.trace L c ops with
      | .error p => .error p
      | .ok (c, T) => .ok (c, items ++ T)

/-! ## The observer -/

/-- The events that end the sending of a command. -/
def ClientEvent.isTerminal : ClientEvent → Bool
  | .commandSent .. | .commandRejected .. | .authenticateStatusReceived .. | .idleDoneSent ..
  | .idleRejected .. => true
  | _ => false

/-- What was observed about a command that ended. -/
structure ClientEnded where
  event : ClientEvent
  sent : Bytes
  datas : List AuthenticateData
  deriving DecidableEq, Repr

/-- The observer's bookkeeping.  The fields from `sent` on count since the last terminal event. -/
structure ClientView where
  /-- the greeting was reported -/
  greeted : Bool
  /-- everything passed to `enqueue_input` -/
  given : Bytes
  /-- the bytes of all reported messages, silent continuations and errors -/
  consumed : Bytes
  /-- all enqueued commands -/
  enqueued : List (RawHandle × Command)
  /-- the commands that ended -/
  ended : List ClientEnded
  /-- bytes output for the current command -/
  sent : Bytes
  /-- literals released by continuation requests -/
  released : Nat
  /-- `AuthenticateStarted`/`IdleCommandSent` was reported -/
  started : Bool
  /-- authenticate continuation requests reported -/
  asked : Nat
  /-- authenticate data accepted from the user -/
  datas : List AuthenticateData
  /-- `IdleAccepted` was reported -/
  accepted : Bool
  /-- `set_idle_done` succeeded -/
  doneSet : Bool
  deriving DecidableEq, Repr

/-- Nothing observed. -/
def ClientView.start : ClientView :=
  { greeted := false, given := [], consumed := [], enqueued := [], ended := [], sent := [],
    released := 0, started := false, asked := 0, datas := [], accepted := false, doneSet := false }

/-- The current command ended with the given event. -/
def ClientView.terminate (v : ClientView) (event : ClientEvent) : ClientView :=
  { v with
    ended := v.ended ++ [{ event, sent := v.sent, datas := v.datas }]
    sent := [], released := 0, started := false, asked := 0, datas := [], accepted := false,
    doneSet := false }

/-- Bookkeeping of an event. -/
def ClientView.event (v : ClientView) (event : ClientEvent) : ClientView :=
  if event.isTerminal then v.terminate event
  else
    match event with
    | .greetingReceived _ => { v with greeted := true }
    | .authenticateStarted _ => { v with started := true }
    | .idleCommandSent _ => { v with started := true }
    | .authenticateContinuationRequestReceived .. => { v with asked := v.asked + 1 }
    | .idleAccepted .. => { v with accepted := true }
    | _ => v

/-- The bytes reported by an error. -/
def ClientError.bytes : ClientError → Bytes
  | .expectedCrlfGotLf b => b
  | .malformedMessage b => b

/-- Bookkeeping of one item. -/
def ClientView.observe (v : ClientView) : CItem → ClientView
  | .enqueue h c => { v with enqueued := v.enqueued ++ [(h, c)] }
  | .input b => { v with given := v.given ++ b }
  | .setAuth d (.ok _) => { v with datas := v.datas ++ [d] }
  | .setAuth _ (.error _) => v
  | .setDone (some _) => { v with doneSet := true }
  | .setDone none => v
  | .output b => { v with sent := v.sent ++ b }
  | .sent e => v.event e
  | .received b e => { v with consumed := v.consumed ++ b }.event e
  | .released b => { v with consumed := v.consumed ++ b, released := v.released + 1 }
  | .failed e => { v with consumed := v.consumed ++ e.bytes }
  | .starved => v

/-- The observer's bookkeeping after a trace. -/
def ClientView.of (T : List CItem) : ClientView := T.foldl observe start

/-- The commands that have not ended, oldest first. -/
def ClientView.remaining (v : ClientView) : List (RawHandle × Command) := v.enqueued.drop v.ended.length

/-- The command whose bytes are being sent. -/
def ClientView.current (v : ClientView) : Option (RawHandle × Command) :=
  if v.sent = [] then none else v.remaining.head?

/-! ## What is allowed -/

/-- The bytes of a list of fragments. -/
def wire (fs : List Fragment) : Bytes := fs.flatMap Fragment.data

/-- The number of synchronizing literals. -/
def syncs : List Fragment → Nat
  | [] => 0
  | .literal _ .sync :: fs => syncs fs + 1
  | _ :: fs => syncs fs

/-- The lines of authenticate data. -/
def wireDatas (L : Lib) (ds : List AuthenticateData) : Bytes :=
  ds.flatMap fun d => wire (L.encodeAuthenticateData d)

/-- A command that is neither AUTHENTICATE nor IDLE. -/
def Command.isRegular (c : Command) : Bool :=
  match c.body with
  | .other _ => true
  | _ => false

/-- AUTHENTICATE. -/
def Command.isAuthenticate (c : Command) : Bool :=
  match c.body with
  | .authenticate .. => true
  | _ => false

/-- IDLE. -/
def Command.isIdle (c : Command) : Bool :=
  match c.body with
  | .idle => true
  | _ => false

/-- Which event a decoded response must produce (`none`: it releases a literal). -/
def ClientView.route (v : ClientView) : Response → Option ClientEvent
  | .data d => some (.dataReceived d)
  | .status st =>
    match v.current, st with
    | some (h, cmd), .tagged tag body =>
      if tag = cmd.tag then
        match cmd.body with
        | .other _ => if body.kind = .bad then some (.commandRejected h cmd st) else some (.statusReceived st)
        | .authenticate m ir => some (.authenticateStatusReceived h ⟨cmd.tag, m, ir⟩ st)
        | .idle => some (.idleRejected h st)
      else some (.statusReceived st)
    | _, _ => some (.statusReceived st)
  | .continuationRequest r =>
    match v.current with
    | none => some (.continuationRequestReceived r)
    | some (h, cmd) =>
      match cmd.body with
      | .other _ => none
      | .authenticate .. =>
        if v.asked = v.datas.length then some (.authenticateContinuationRequestReceived h r)
        else some (.continuationRequestReceived r)
      | .idle =>
        if v.accepted then some (.continuationRequestReceived r) else some (.idleAccepted h r)

/-- What `set_authenticate_data` must return: it succeeds exactly if the running AUTHENTICATE was asked
for data that was not supplied yet. -/
def ClientView.authReply (v : ClientView) (d : AuthenticateData) : Except AuthenticateData RawHandle :=
  match v.current with
  | some (h, cmd) =>
    if cmd.isAuthenticate = true ∧ v.asked = v.datas.length + 1 then .ok h else .error d
  | none => .error d

/-- What `set_idle_done` must return: it succeeds exactly if the running IDLE was accepted and DONE was
not requested yet. -/
def ClientView.doneReply (v : ClientView) : Option RawHandle :=
  match v.current with
  | some (h, cmd) => if cmd.isIdle = true ∧ v.accepted = true ∧ v.doneSet = false then some h else none
  | none => none

/-- The framing of the greeting, `/repo/src/client.rs:109-136`. -/
def greetingFraming (L : Lib) (relaxed : Bool) : Framing SimpleDecodeError Greeting :=
  { relaxed, dec := L.decodeGreeting, lit := fun _ => none }

/-- The framing of responses: every literal is accepted, `/repo/src/client.rs:144-148`. -/
def responseFraming (L : Lib) (relaxed : Bool) : Framing ResponseDecodeError Response :=
  { relaxed, dec := L.decodeResponse, lit := ResponseDecodeError.literal }

/-- No progress was observed for the current command. -/
def ClientView.Fresh (v : ClientView) : Prop :=
  v.sent = [] ∧ v.released = 0 ∧ v.started = false ∧ v.asked = 0 ∧ v.datas = [] ∧
    v.accepted = false ∧ v.doneSet = false

/-- Nothing can be sent without the server or the user. -/
def Waiting (L : Lib) (v : ClientView) : Prop :=
  (v.Fresh ∧ v.remaining = []) ∨
  ∃ h cmd q, v.remaining = (h, cmd) :: q ∧ v.sent ≠ [] ∧
  ((cmd.isRegular = true ∧ v.datas = [] ∧ ∃ pre d post, L.encodeCommand cmd = pre ++ .literal d .sync :: post ∧
      v.sent = wire pre ∧ v.released = syncs pre) ∨
   (cmd.isAuthenticate = true ∧ v.started = true ∧
      v.sent = wire (L.encodeCommand cmd) ++ wireDatas L v.datas ∧
      (v.asked = v.datas.length ∨ v.asked = v.datas.length + 1)) ∨
   (cmd.isIdle = true ∧ v.started = true ∧ v.datas = [] ∧ v.sent = wire (L.encodeCommand cmd) ∧
      v.doneSet = false))

/-- The bytes of command `cmd` before its synchronizing literal `d` were output, all earlier literals were
released, and this one is not released. -/
def PendingLiteral (L : Lib) (v : ClientView) (h : RawHandle) (cmd : Command) (d : Bytes) : Prop :=
  v.current = some (h, cmd) ∧ cmd.isRegular = true ∧
  ∃ pre post, L.encodeCommand cmd = pre ++ .literal d .sync :: post ∧ v.sent = wire pre ∧ v.released = syncs pre

/-- The response that an event of the receiving side carries. -/
def ClientEvent.response? : ClientEvent → Option Response
  | .commandRejected _ _ st | .authenticateStatusReceived _ _ st | .idleRejected _ st | .statusReceived st =>
    some (.status st)
  | .authenticateContinuationRequestReceived _ r | .idleAccepted _ r | .continuationRequestReceived r =>
    some (.continuationRequest r)
  | .dataReceived d => some (.data d)
  | _ => none

/-! ## Projections of a trace -/

/-- Bytes passed to `enqueue_input`. -/
def CItem.given : CItem → Bytes
  | .input b => b
  | _ => []

/-- Bytes of a reported message, silently handled continuation request, or error. -/
def CItem.taken : CItem → Bytes
  | .received w _ => w
  | .released w => w
  | .failed e => e.bytes
  | _ => []

/-- Bytes handed out for sending. -/
def CItem.outputs : CItem → Bytes
  | .output b => b
  | _ => []

/-- The enqueued command. -/
def CItem.enqueues : CItem → List (RawHandle × Command)
  | .enqueue h c => [(h, c)]
  | _ => []

/-- The event reported by `next`. -/
def CItem.event? : CItem → Option ClientEvent
  | .sent e => some e
  | .received _ e => some e
  | _ => none

/-- The terminal event reported by `next`. -/
def CItem.terminal? (i : CItem) : Option ClientEvent := i.event?.filter ClientEvent.isTerminal

/-- All bytes passed to `enqueue_input`. -/
def clientGiven (T : List CItem) : Bytes := T.flatMap CItem.given

/-- All bytes taken from the input. -/
def clientTaken (T : List CItem) : Bytes := T.flatMap CItem.taken

/-- All bytes handed out for sending. -/
def clientOutput (T : List CItem) : Bytes := T.flatMap CItem.outputs

/-- All enqueued commands. -/
def clientEnqueued (T : List CItem) : List (RawHandle × Command) := T.flatMap CItem.enqueues

/-- All terminal events. -/
def clientTerminals (T : List CItem) : List ClientEvent := T.filterMap CItem.terminal?

/-- The input that was given but not taken yet. -/
def clientUnread (T : List CItem) : Bytes := (clientGiven T).drop (clientTaken T).length

/-- The greeting was reported. -/
def clientGreeted (T : List CItem) : Prop := ∃ i ∈ T, ∃ g, i.event? = some (.greetingReceived g)

/-- The items reported by `next` (including the silent ones). -/
def CItem.isNext : CItem → Bool
  | .enqueue .. | .input _ | .setAuth .. | .setDone _ => false
  | _ => true

/-! ## Segments of the output -/

/-- The whole segment of an ended command, by the event that ended it. -/
def EndedAs (L : Lib) (x : RawHandle × Command) (en : ClientEnded) : Prop :=
  let line := wire (L.encodeCommand x.2)
  match x.2.body with
  | .other _ =>
    (en.event = .commandSent x.1 x.2 ∧ en.sent = line) ∨
    (∃ st, en.event = .commandRejected x.1 x.2 st ∧
      ∃ pre d post, L.encodeCommand x.2 = pre ++ .literal d .sync :: post ∧ en.sent = wire pre)
  | .authenticate m ir =>
    ∃ st, en.event = .authenticateStatusReceived x.1 ⟨x.2.tag, m, ir⟩ st ∧
      en.sent = line ++ wireDatas L en.datas
  | .idle =>
    (en.event = .idleDoneSent x.1 ∧ en.sent = line ++ wire L.encodeIdleDone) ∨
    (∃ st, en.event = .idleRejected x.1 st ∧ en.sent = line)

/-- The segment of the command in progress: a beginning of one of the segments above. -/
def OpenAs (L : Lib) (x : RawHandle × Command) (sent : Bytes) (datas : List AuthenticateData) : Prop :=
  let line := wire (L.encodeCommand x.2)
  match x.2.body with
  | .other _ => ∃ pre post, L.encodeCommand x.2 = pre ++ post ∧ sent = wire pre ∧
      (post = [] ∨ ∃ d post', post = .literal d .sync :: post')
  | .authenticate .. => ∃ ds, ds <+: datas ∧ sent = line ++ wireDatas L ds
  | .idle => sent = line ∨ sent = line ++ wire L.encodeIdleDone

/-- A terminal event reports the given command. -/
def ClientEvent.Reports (e : ClientEvent) (h : RawHandle) (cmd : Command) : Prop :=
  e = .commandSent h cmd ∨ (∃ st, e = .commandRejected h cmd st) ∨
  (∃ ca st, cmd = ⟨ca.tag, .authenticate ca.mechanism ca.initialResponse⟩ ∧ e = .authenticateStatusReceived h ca st) ∨
  (cmd = ⟨cmd.tag, .idle⟩ ∧ (e = .idleDoneSent h ∨ ∃ st, e = .idleRejected h st))

end ImapFlow
