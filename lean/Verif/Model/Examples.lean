import Verif.Model.Proxy

/-!
# The example programs (`/repo/examples`)

`client.rs`, `client_authenticate.rs`, `client_idle.rs`, `server.rs`, `server_authenticate.rs` and `server_idle.rs`.  All
of them have the same shape: they await the greeting event and then call `stream.next` in a loop, with a `match` on the
event; some also await a line that the user enters (`tokio::select!`).  Like the streams (`Model/FullStream.lean`) a running
program is a transition system whose actions are chosen by the environment: what the socket does, which of the branches of
`select!` completes, what the user enters, and the result of `rand::random()`.

Not modelled: establishing the connection, the output of `println!`, and the thread that reads the standard input.
-/

namespace ImapFlow

/-- One of the programs: its variables, and what it does with an event and with a line. -/
structure Program (σ S ev ι : Type) where
  /-- the variables before the first call of `next` -/
  start : σ
  /-- the `match` on the event that `next` returned, where `coin` is the result of `rand::random()`.  Returns the
  variables, the state after the calls, the calls, and `abort` if `main` returns. -/
  event : σ → S → ev → (coin : Bool) → Except Panic (σ × S × List ι × ControlFlow)
  /-- the branch of a line; `none` if the program does not wait for a line -/
  line : σ → S → Bytes → Option (Except Panic (σ × S × List ι))

/-- A running program. -/
inductive Running (K σ S : Type) where
  | running (vars : σ) (stream : FullStream K S)
  /-- `main` has returned -/
  | over
  /-- a panic -/
  | dead

/-- What the environment does. -/
inductive ProgramAct where
  /-- with the connection; `coin` is the next result of `rand::random()` -/
  | io (act : IoAct) (coin : Bool)
  /-- the user enters a line -/
  | line (text : Bytes)
  deriving DecidableEq, Repr

/-- What happens: on the stream, or to the program. -/
inductive ProgramItem (ε ev ι : Type) where
  | stream (item : FullItem ε ev ι)
  /-- the program gets a line -/
  | line (text : Bytes)
  /-- the `unwrap()` of the result of `next` fails -/
  | nextFailed (error : StreamError ε)
  /-- another `unwrap()` or an `assert_eq!` fails -/
  | panicked (p : Panic)

namespace Program

variable {K σ S ε ev ι : Type}

/-- The program after `next` returned. -/
def resume (P : Program σ S ev ι) (vars : σ) (stream : FullStream K S) (coin : Bool) :
    Except (StreamError ε) ev → Running K σ S × List (ProgramItem ε ev ι)
  | .error e => (.dead, [.nextFailed e])
  | .ok event =>
    match P.event vars stream.state event coin with
    | .error p => (.dead, [.panicked p])
    | .ok (vars, state, calls, .continue) =>
      (.running vars { stream with state }, calls.map fun op => .stream (.stream (.user op)))
    | .ok (_, _, calls, .abort) => (.over, calls.map fun op => .stream (.stream (.user op)))

/-- One step; `none` if the action is not possible. -/
def step (P : Program σ S ev ι) (M : Machine S ε ev ι) :
    Running K σ S → ProgramAct → Option (Running K σ S × List (ProgramItem ε ev ι))
  | .running vars stream, .io act coin =>
    match stream.step M act.toStream with
    | none => none
    | some (stream, items) =>
      let items' := items.map ProgramItem.stream
      if stream.ctl = .at .dead then some (.dead, items')
      else
        match nextResult items with
        | none => some (.running vars stream, items')
        | some result =>
          let (program, more) := P.resume vars stream coin result
          some (program, items' ++ more)
  | .running vars stream, .line text =>
    let (stream, dropped) := stream.dropFuture
    let dropped := dropped.map ProgramItem.stream
    match P.line vars stream.state text with
    | none => none
    | some (.error p) => some (.dead, dropped ++ [.line text, .panicked p])
    | some (.ok (vars, state, calls)) =>
      some (.running vars { stream with state }, dropped ++ .line text :: calls.map fun op => .stream (.stream (.user op)))
  | _, _ => none

/-- A run; `none` if some action is not possible. -/
def run (P : Program σ S ev ι) (M : Machine S ε ev ι) (x : Running K σ S) :
    List ProgramAct → Option (Running K σ S × List (ProgramItem ε ev ι))
  | [] => some (x, [])
  | a :: as =>
    match P.step M x a with
    | none => none
    | some (x, items) =>
      match run P M x as with
      | none => none
      | some (x, T) => some (x, items ++ T)

end Program

/-! ## Clients -/

namespace Examples

variable {K : Type}

/-- A client before its first call of `next`, e.g. `/repo/examples/client.rs:13-15`. -/
def startClient {σ : Type} (P : Program σ Client ClientEvent ClientOp) (g : HandleGenerator) : Running K σ Client :=
  .running P.start (.insecure (Client.new g .default))

/-- The variables of `client.rs`. -/
inductive LoginVars where
  /-- in the first loop -/
  | greeting
  /-- in the second loop -/
  | running (handle : RawHandle)
  deriving DecidableEq, Repr

/-- The command of `client.rs` and of `client_std.rs`; `login` stands for the body of LOGIN. -/
def loginCommand (login : Bytes) : Command := { tag := ascii "A1", body := .other login }

/-- `client.rs`, `/repo/examples/client.rs:17-63`. -/
def client (login : Bytes) : Program LoginVars Client ClientEvent ClientOp where
  start := .greeting
  event vars client event _ :=
    match vars with
    | .greeting =>
      match event with
      | .greetingReceived _ =>
        let (client, handle) := client.enqueueCommand (loginCommand login)
        .ok (.running handle, client, [.enqueueCommand (loginCommand login)], .continue)
      | _ => .ok (.greeting, client, [], .continue)
    | .running handle =>
      match event with
      | .commandSent gotHandle _ =>
        if handle = gotHandle then .ok (.running handle, client, [], .continue) else .error .assertFailed
      | .commandRejected gotHandle _ _ =>
        if handle = gotHandle then .ok (.running handle, client, [], .continue) else .error .assertFailed
      | _ => .ok (.running handle, client, [], .continue)
  line _ _ _ := none

/-- The variables of `client_authenticate.rs`. -/
inductive AuthVars where
  /-- in the first loop -/
  | greeting
  /-- in the second loop -/
  | running (authenticateData : List AuthenticateData)
  deriving DecidableEq, Repr

/-- The command of `client_authenticate.rs`. -/
def authCommand (tag : Tag) : Command := { tag, body := .authenticate .login none }

/-- The data of `client_authenticate.rs`, `/repo/examples/client_authenticate.rs:35-38`. -/
def authDatas : List AuthenticateData := [.continue (ascii "alice"), .continue (ascii "password")]

/-- `client_authenticate.rs`, `/repo/examples/client_authenticate.rs:20-59`; `tag` is the tag that was generated. -/
def clientAuthenticate (L : Lib) (tag : Tag) : Program AuthVars Client ClientEvent ClientOp where
  start := .greeting
  event vars client event _ :=
    match vars with
    | .greeting =>
      match event with
      | .greetingReceived _ =>
        let (client, _) := client.enqueueCommand (authCommand tag)
        .ok (.running authDatas, client, [.enqueueCommand (authCommand tag)], .continue)
      | _ => .ok (.greeting, client, [], .continue)
    | .running datas =>
      match event with
      | .authenticateContinuationRequestReceived _ _ =>
        let (data, datas) : AuthenticateData × List AuthenticateData :=
          match datas with
          | data :: datas => (data, datas)
          | [] => (.cancel, [])
        match client.setAuthenticateData L data with
        | .error p => .error p
        | .ok (client, r) =>
          match unwrap r with
          | .error p => .error p
          | .ok _ => .ok (.running datas, client, [.setAuthenticateData data], .continue)
      | .authenticateStatusReceived _ _ _ => .ok (.running datas, client, [], .abort)
      | _ => .ok (.running datas, client, [], .continue)
  line _ _ _ := none

/-- The variables of `client_idle.rs`. -/
inductive IdleVars where
  /-- in the first loop -/
  | greeting
  /-- in the second loop -/
  | idling
  /-- in the third loop -/
  | ending
  deriving DecidableEq, Repr

/-- The command of `client_idle.rs`. -/
def idleCommand : Command := { tag := ascii "A1", body := .idle }

/-- `client_idle.rs`, `/repo/examples/client_idle.rs:20-91`. -/
def clientIdle (L : Lib) : Program IdleVars Client ClientEvent ClientOp where
  start := .greeting
  event vars client event _ :=
    match vars with
    | .greeting =>
      match event with
      | .greetingReceived _ =>
        let (client, _) := client.enqueueCommand idleCommand
        .ok (.idling, client, [.enqueueCommand idleCommand], .continue)
      | _ => .ok (.greeting, client, [], .continue)
    | .idling =>
      match event with
      | .idleRejected _ _ => .ok (.ending, client, [], .continue)
      | .idleDoneSent _ => .ok (.ending, client, [], .continue)
      | _ => .ok (.idling, client, [], .continue)
    | .ending =>
      match event with
      | .statusReceived (.tagged gotTag _) =>
        .ok (.ending, client, [], if gotTag = idleCommand.tag then .abort else .continue)
      | _ => .ok (.ending, client, [], .continue)
  line vars client _ :=
    match vars with
    | .idling =>
      some <|
        match client.setIdleDone L with
        | .error p => .error p
        | .ok (client, _) => .ok (.idling, client, [.setIdleDone])
    | _ => none

/-! ## Servers -/

/-- A server before its first call of `next`, e.g. `/repo/examples/server.rs:14-18`; `text` is the text of the greeting. -/
def startServer {σ : Type} (L : Lib) (P : Program σ Server ServerEvent ServerOp) (g : HandleGenerator) (text : Text) :
    Except Panic (Running K σ Server) :=
  match ServerOptions.default L with
  | .error p => .error p
  | .ok options =>
    if L.textValid text then
      .ok (.running P.start (.insecure (Server.new g options { kind := .ok, code := none, text })))
    else .error .unwrapFailed

/-- `Status::ok(Some(tag), None, text).unwrap()` and `Status::no(Some(tag), None, text).unwrap()`. -/
def status (L : Lib) (kind : StatusKind) (tag : Tag) (text : Text) : Except Panic Status :=
  if L.textValid text then .ok (.tagged tag { kind, code := none, text }) else .error .unwrapFailed

/-- `CommandContinuationRequest::basic(None, text).unwrap()`. -/
def request (L : Lib) (text : Text) : Except Panic ContinuationRequest :=
  match L.ccrBasicFromStr none text with
  | some request => .ok request
  | none => .error .unwrapFailed

/-- The text of the greeting of `server.rs`. -/
def serverText : Text := ascii "server (example)"

/-- The variables of `server.rs`. -/
inductive NoVars where
  /-- in the first loop -/
  | greeting
  /-- in the second loop -/
  | running (handles : List RawHandle)
  deriving DecidableEq, Repr

/-- `server.rs`, `/repo/examples/server.rs:20-51`. -/
def server (L : Lib) : Program NoVars Server ServerEvent ServerOp where
  start := .greeting
  event vars server event _ :=
    match vars with
    | .greeting =>
      match event with
      | .greetingSent _ => .ok (.running [], server, [], .continue)
      | _ => .ok (.greeting, server, [], .continue)
    | .running handles =>
      match event with
      | .commandReceived command =>
        match status L .no command.tag (ascii "...") with
        | .error p => .error p
        | .ok status =>
          let (server, handle) := server.enqueueStatus status
          .ok (.running (handles ++ [handle]), server, [.enqueueStatus status], .continue)
      | .responseSent gotHandle _ =>
        if handles.head? = some gotHandle then .ok (.running handles.tail, server, [], .continue) else .error .assertFailed
      | _ => .ok (.running handles, server, [], .continue)
  line _ _ _ := none

/-- The text of the greeting of `server_authenticate.rs` and of `server_idle.rs`. -/
def serverIdleText : Text := ascii "server_idle (example)"

/-- The variables of `server_authenticate.rs`. -/
inductive AuthServerVars where
  /-- in the first loop -/
  | greeting
  /-- in the second loop -/
  | running (currentAuthenticateTag : Option Tag)
  deriving DecidableEq, Repr

/-- `server_authenticate.rs`, `/repo/examples/server_authenticate.rs:19-77`. -/
def serverAuthenticate (L : Lib) : Program AuthServerVars Server ServerEvent ServerOp where
  start := .greeting
  event vars server event coin :=
    match vars with
    | .greeting =>
      match event with
      | .greetingSent _ => .ok (.running none, server, [], .continue)
      | _ => .ok (.greeting, server, [], .continue)
    | .running current =>
      match event with
      | .commandAuthenticateReceived commandAuthenticate =>
        if coin then
          match request L (ascii "I need more data...") with
          | .error p => .error p
          | .ok request =>
            match server.authenticateContinue request with
            | (server, r) =>
              match unwrap r with
              | .error p => .error p
              | .ok _ =>
                .ok (.running (some commandAuthenticate.tag), server, [.authenticateContinue request], .continue)
        else
          match status L .ok commandAuthenticate.tag (ascii "Thanks, that's already enough!") with
          | .error p => .error p
          | .ok status =>
            match server.authenticateFinish status with
            | .error p => .error p
            | .ok (server, r) =>
              match unwrap r with
              | .error p => .error p
              | .ok _ => .ok (.running current, server, [.authenticateFinish status], .continue)
      | .authenticateDataReceived _ =>
        if coin then
          match request L (ascii "...more...") with
          | .error p => .error p
          | .ok request =>
            match server.authenticateContinue request with
            | (server, r) =>
              match unwrap r with
              | .error p => .error p
              | .ok _ => .ok (.running current, server, [.authenticateContinue request], .continue)
        else
          match current with
          | none => .error .unwrapFailed
          | some tag =>
            match status L .ok tag (ascii "Thanks!") with
            | .error p => .error p
            | .ok status =>
              match server.authenticateFinish status with
              | .error p => .error p
              | .ok (server, r) =>
                match unwrap r with
                | .error p => .error p
                | .ok _ => .ok (.running none, server, [.authenticateFinish status], .continue)
      | .commandReceived command =>
        match status L .no command.tag (ascii "Please use AUTHENTICATE") with
        | .error p => .error p
        | .ok status => .ok (.running current, (server.enqueueStatus status).1, [.enqueueStatus status], .continue)
      | _ => .ok (.running current, server, [], .continue)
  line _ _ _ := none

/-- The variables of `server_idle.rs`. -/
inductive IdleServerVars where
  /-- in the first loop -/
  | greeting
  /-- in the second loop -/
  | running (currentIdleTag : Option Tag)
  deriving DecidableEq, Repr

/-- `server_idle.rs`, `/repo/examples/server_idle.rs:24-105`; `expunge` stands for `Data::Expunge(1)`. -/
def serverIdle (L : Lib) (expunge : Data) : Program IdleServerVars Server ServerEvent ServerOp where
  start := .greeting
  event vars server event _ :=
    match vars with
    | .greeting =>
      match event with
      | .greetingSent _ => .ok (.running none, server, [], .continue)
      | _ => .ok (.greeting, server, [], .continue)
    | .running current =>
      match event with
      | .idleCommandReceived tag => .ok (.running (some tag), server, [], .continue)
      | .idleDoneReceived =>
        match current with
        | none => .ok (.running none, server, [], .continue)
        | some tag =>
          match status L .ok tag (ascii "...") with
          | .error p => .error p
          | .ok status => .ok (.running none, (server.enqueueStatus status).1, [.enqueueStatus status], .continue)
      | _ => .ok (.running current, server, [], .continue)
  line vars server text :=
    match vars with
    | .greeting => none
    | .running current =>
      some <|
        if text = ascii "ok" then
          match request L (ascii "...") with
          | .error p => .error p
          | .ok request =>
            match server.idleAccept request with
            | .error p => .error p
            | .ok (server, _) => .ok (.running current, server, [.idleAccept request])
        else if text = ascii "no" then
          match current with
          | none => .ok (.running none, server, [])
          | some tag =>
            match status L .no tag (ascii "...") with
            | .error p => .error p
            | .ok status =>
              match server.idleReject status with
              | .error p => .error p
              | .ok (server, _) => .ok (.running current, server, [.idleReject status])
        else if text = ascii "expunge" then
          .ok (.running current, (server.enqueueData expunge).1, [.enqueueData expunge])
        else .ok (.running current, server, [])

end Examples

end ImapFlow
