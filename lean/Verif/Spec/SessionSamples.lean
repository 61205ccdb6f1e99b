import Verif.Spec.Session
import Verif.Spec.ExampleSamples
import Verif.Spec.DialogueSamples

/-!
# Concrete sessions of an example client and an example server

Sessions with the toy codec, used beside the theorems.
-/

namespace ImapFlow.SessionSample

open ClientSample (str ln g)
open NetSample (line_message)

/-- The options of the example servers. -/
def options : ServerOptions :=
  match ServerOptions.default Toy.lib with
  | .ok o => o
  | .error _ => ServerSample.options

theorem options_eq : ServerOptions.default Toy.lib = .ok options := rfl

/-! ## The messages are decoded to themselves -/

theorem line_command {b : Bytes} {c : Command} (h : Toy.lib.decodeCommand (b ++ [CR, LF]) = .ok ([], c)) (hb : LF ∉ b)
    (he : Toy.lib.encodeCommand c = [.line (b ++ [CR, LF])]) (hl : (b ++ [CR, LF]).length ≤ options.maxCommandSize) :
    c.RoundTrip Toy.lib options ∧ c.Fits Toy.lib options := by
  unfold Command.RoundTrip Command.Fits
  rw [he]
  refine ⟨.last ⟨b ++ [CR], by simp, ?_⟩ (.inr ⟨b, rfl⟩) h, by simpa [wire, Fragment.data] using hl, by simp⟩
  simp only [List.mem_append, List.mem_singleton, not_or]
  exact ⟨hb, by decide⟩

theorem line_response (b : Bytes) (r : Response) (h1 : Toy.lib.decodeResponse (b ++ [CR, LF]) = .ok ([], r)) (h2 : LF ∉ b)
    (h3 : wire (Toy.lib.encodeResponse r) = b ++ [CR, LF]) (h : Option RawHandle) :
    (ServerMessage.response h r).RoundTrip Toy.lib .default := by
  show IsMessage (responseFraming Toy.lib false) (wire (Toy.lib.encodeResponse r)) r
  rw [h3]
  refine line_message ?_ h2
  simp only [responseFraming, h1]

/-- The content of a line. -/
def content (fs : List Fragment) : Bytes := (wire fs).take ((wire fs).length - 2)

theorem accepts : ∀ mode, ∀ m ∈ acceptReply Toy.lib options mode, m.RoundTrip Toy.lib .default := by
  intro mode m hm
  have e : acceptReply Toy.lib options .sync = [.response none (.continuationRequest (.basic none (str "...")))] := by
    decide +kernel
  cases mode with
  | nonSync => cases hm
  | sync =>
    rw [e] at hm
    cases List.mem_singleton.1 hm
    exact line_response (str "+...") _ (by decide +kernel) (by decide +kernel) (by decide +kernel) _

theorem done : DoneRoundTrip Toy.lib options :=
  ⟨line_message (F := idleFraming Toy.lib options) (b := str "D") (by decide +kernel) (by decide +kernel), by decide +kernel⟩

/-- What is to be checked of a response. -/
def okResponse (r : Response) : Bool :=
  decide (Toy.lib.decodeResponse (content (Toy.lib.encodeResponse r) ++ [CR, LF]) = .ok ([], r)) &&
  decide (LF ∉ content (Toy.lib.encodeResponse r)) &&
  decide (wire (Toy.lib.encodeResponse r) = content (Toy.lib.encodeResponse r) ++ [CR, LF])

theorem response_message {r : Response} (h : okResponse r = true) (hd : Option RawHandle) :
    (ServerMessage.response hd r).RoundTrip Toy.lib .default := by
  simp only [okResponse, Bool.and_eq_true, decide_eq_true_eq] at h
  exact line_response _ r h.1.1 h.1.2 h.2 hd

/-- What is to be checked of the responses of a server. -/
def okResponses (tag : Tag) (bodies : List StatusBody) (requests : List Text) (told : List Data) : Bool :=
  (bodies.all fun b => okResponse (.status (.tagged tag b))) &&
  (requests.all fun t => match Toy.lib.ccrBasicFromStr none t with | some q => okResponse (.continuationRequest q) | none => true) &&
  told.all fun d => okResponse (.data d)

theorem conversant {text : Text} {commands : List Command} {datas : List AuthenticateData} {tag : Tag}
    {bodies : List StatusBody} {requests : List Text} {told : List Data}
    (hg : (ServerMessage.greeting { kind := .ok, code := none, text }).RoundTrip Toy.lib .default)
    (hc : ∀ c ∈ commands, c.RoundTrip Toy.lib options ∧ c.Fits Toy.lib options)
    (hd : ∀ d ∈ datas, d.RoundTrip Toy.lib options) (h : okResponses tag bodies requests told = true) :
    Conversant Toy.lib options text commands datas tag bodies requests told := by
  simp only [okResponses, Bool.and_eq_true, List.all_eq_true] at h
  obtain ⟨⟨h1, h2⟩, h3⟩ := h
  refine ⟨hg, accepts, hc, hd, done, fun b hb hd => response_message (h1 b hb) hd, fun t ht q hq hd => ?_,
    fun d hd h => response_message (h3 d hd) h⟩
  have := h2 t ht
  rw [hq] at this
  exact response_message this hd

theorem login_conversant : Conversant Toy.lib options Examples.serverText [Examples.loginCommand (str "x")] [] (ascii "A1")
    [noBody] [] [] := by
  refine conversant (line_message (F := greetingFraming Toy.lib false) (b := 71 :: Examples.serverText) (by decide +kernel)
    (by decide +kernel)) (fun c hc => ?_) (fun _ h => (List.not_mem_nil h).elim) (by decide +kernel)
  rw [List.mem_singleton.1 hc]
  exact line_command (b := str "A1 Cx") (by decide +kernel) (by decide +kernel) (by decide +kernel) (by decide +kernel)

theorem auth_conversant : Conversant Toy.lib options Examples.serverIdleText [Examples.authCommand (str "A")]
    (.cancel :: Examples.authDatas) (str "A") authBodies authRequests [] := by
  refine conversant (line_message (F := greetingFraming Toy.lib false) (b := 71 :: Examples.serverIdleText) (by decide +kernel)
    (by decide +kernel)) (fun c hc => ?_) (fun d hd => ?_) (by decide +kernel)
  · rw [List.mem_singleton.1 hc]
    exact line_command (b := str "A L") (by decide +kernel) (by decide +kernel) (by decide +kernel) (by decide +kernel)
  · simp only [Examples.authDatas, List.mem_cons, List.not_mem_nil, or_false] at hd
    rcases hd with rfl | rfl | rfl
    · exact ⟨line_message (F := authenticateFraming Toy.lib options) (b := str "*") (by decide +kernel) (by decide +kernel),
        by decide +kernel⟩
    · exact ⟨line_message (F := authenticateFraming Toy.lib options) (b := str "Dalice") (by decide +kernel) (by decide +kernel),
        by decide +kernel⟩
    · exact ⟨line_message (F := authenticateFraming Toy.lib options) (b := str "Dpassword") (by decide +kernel)
        (by decide +kernel), by decide +kernel⟩

/-- The data of `server_idle.rs`. -/
def expunge : Data := .other (str "1")

theorem idle_conversant : Conversant Toy.lib options Examples.serverIdleText [Examples.idleCommand] [] (ascii "A1") idleBodies
    [ascii "..."] [expunge] := by
  refine conversant (line_message (F := greetingFraming Toy.lib false) (b := 71 :: Examples.serverIdleText) (by decide +kernel)
    (by decide +kernel)) (fun c hc => ?_) (fun _ h => (List.not_mem_nil h).elim) (by decide +kernel)
  rw [List.mem_singleton.1 hc]
  exact line_command (b := str "A1 I") (by decide +kernel) (by decide +kernel) (by decide +kernel) (by decide +kernel)

/-! ## Sessions -/

/-- The steps that are tried, in this order. -/
def tries (coin : Bool) : List SessionAct :=
  [.client .poll, .client (.write 1000), .client (.write 1), .client (.read 3), .server .poll coin, .server (.write 1) coin,
    .server (.read 1000) coin]

section
variable {σ τ : Type} (P : Program σ Client ClientEvent ClientOp) (P' : Program τ Server ServerEvent ServerOp)

/-- The first possible step. -/
def first (s : Session Nat σ τ) : List SessionAct → Option (SessionAct × Session Nat σ τ)
  | [] => none
  | a :: as =>
    match s.step Toy.lib P P' a with
    | some (s, _) => some (a, s)
    | none => first s as

/-- Steps until nothing is possible, at most as many as given. -/
def settle (coin : Bool) : Nat → Session Nat σ τ → List SessionAct × Session Nat σ τ
  | 0, s => ([], s)
  | n + 1, s =>
    match first P P' s (tries coin) with
    | none => ([], s)
    | some (a, s) =>
      let (as, s) := settle coin n s
      (a :: as, s)

/-- At each scene the programs run until nothing is possible, or as many steps as given; then someone enters a line. -/
def play : List (Bool × Nat × Option SessionAct) → Session Nat σ τ → List SessionAct
  | [], _ => []
  | (coin, n, line) :: scenes, s =>
    let (as, s) := settle P P' coin n s
    as ++ match line with
      | none => play scenes s
      | some a =>
        match s.step Toy.lib P P' a with
        | some (s, _) => a :: play scenes s
        | none => play scenes s

/-- The session in which these scenes are played. -/
def session (text : Text) (scenes : List (Bool × Nat × Option SessionAct)) : Option (Session Nat σ τ × List SessionItem) :=
  match Examples.startServer Toy.lib P' g text with
  | .error _ => none
  | .ok server =>
    let s : Session Nat σ τ := { client := Examples.startClient P g, server, toServer := [], toClient := [] }
    s.run Toy.lib P P' (play P P' scenes s)

/-- What can be compared: the calls, what was heard and told, the events, who runs, and whether both wait. -/
def summary (x : Option (Session Nat σ τ × List SessionItem)) :
    Option (List ClientOp × List ServerEvent × List ServerOp × List ClientEvent × Bool × Bool × Bool) :=
  x.map fun (s, R) => (programCalls (sessionClient R), (programEvents (sessionServer R)).filterMap ServerEvent.heard?,
    programCalls (sessionServer R), programEvents (sessionClient R), s.client.isRunning, s.server.isRunning,
    s.toServer.isEmpty && s.toClient.isEmpty &&
      (match s.client with | .running _ c => decide (c.ctl = .at .reading) | _ => false) &&
      match s.server with | .running _ d => decide (d.ctl = .at .reading) | _ => false)

end

theorem of_summary {σ τ : Type} {P : Program σ Client ClientEvent ClientOp} {P' : Program τ Server ServerEvent ServerOp}
    {text : Text} {scenes : List (Bool × Nat × Option SessionAct)} {C : List ClientOp} {H : List ServerEvent} {D : List ServerOp}
    {E : List ClientEvent} {a b w : Bool} (h : summary (session P P' text scenes) = some (C, H, D, E, a, b, w)) :
    ∃ as, ∃ s : Session Nat σ τ, ∃ R, SessionRuns Toy.lib g g text P P' as s R ∧ programCalls (sessionClient R) = C ∧
      (programEvents (sessionServer R)).filterMap ServerEvent.heard? = H ∧ programCalls (sessionServer R) = D ∧
      programEvents (sessionClient R) = E ∧ s.client.isRunning = a ∧ s.server.isRunning = b ∧ (w = true → s.Waits) := by
  cases hx : session P P' text scenes with
  | none => rw [hx] at h; cases h
  | some y =>
    obtain ⟨s, R⟩ := y
    rw [hx] at h
    simp only [summary, Option.map_some, Option.some.injEq, Prod.mk.injEq] at h
    obtain ⟨h1, h2, h3, h4, h5, h6, h7⟩ := h
    unfold session at hx
    split at hx
    · cases hx
    · rename_i server hs
      refine ⟨_, s, R, ⟨server, hs, hx⟩, h1, h2, h3, h4, h5, h6, ?_⟩
      rintro rfl
      simp only [Bool.and_eq_true, List.isEmpty_iff] at h7
      obtain ⟨⟨⟨k1, k2⟩, k3⟩, k4⟩ := h7
      refine ⟨k1, k2, ?_, ?_⟩
      · split at k3
        · rename_i hc; exact ⟨_, _, hc, of_decide_eq_true k3⟩
        · cases k3
      · split at k4
        · rename_i hc; exact ⟨_, _, hc, of_decide_eq_true k4⟩
        · cases k4

open ExampleSample (hd ok no)

/-- The greeting as the client reports it. -/
def greeted (text : Text) : ClientEvent := .greetingReceived { kind := .ok, code := none, text }

set_option synthInstance.maxSize 512 in
theorem login_eq : summary (session (Examples.client (str "x")) (Examples.server Toy.lib) Examples.serverText
    [(false, 100, none)]) = some (
    [.enqueueCommand (Examples.loginCommand (str "x"))], [.commandReceived (Examples.loginCommand (str "x"))],
    [.enqueueStatus (no "A1" "...")],
    [greeted Examples.serverText, .commandSent hd (Examples.loginCommand (str "x")), .statusReceived (no "A1" "...")],
    true, true, true) := by decide +kernel

/-- The answers of the server for AUTHENTICATE. -/
def need : ContinuationRequest := .basic none (ascii "I need more data...")
def more : ContinuationRequest := .basic none (ascii "...more...")
def thanks : Status := .tagged (str "A") { kind := .ok, code := none, text := ascii "Thanks!" }
def login : CommandAuthenticate := { tag := str "A", mechanism := .login, initialResponse := none }

set_option synthInstance.maxSize 512 in
/-- The server asks for data three times: the third time the client cancels. -/
theorem auth_eq : summary (session (Examples.clientAuthenticate Toy.lib (str "A")) (Examples.serverAuthenticate Toy.lib)
    Examples.serverIdleText [(true, 180, none), (false, 200, none)]) = some (
    [.enqueueCommand (Examples.authCommand (str "A")), .setAuthenticateData (.continue (ascii "alice")),
      .setAuthenticateData (.continue (ascii "password")), .setAuthenticateData .cancel],
    [.commandAuthenticateReceived login, .authenticateDataReceived (.continue (ascii "alice")),
      .authenticateDataReceived (.continue (ascii "password")), .authenticateDataReceived .cancel],
    [.authenticateContinue need, .authenticateContinue more, .authenticateContinue more, .authenticateFinish thanks],
    [greeted Examples.serverIdleText, .authenticateStarted hd, .authenticateContinuationRequestReceived hd need,
      .authenticateContinuationRequestReceived hd more, .authenticateContinuationRequestReceived hd more,
      .authenticateStatusReceived hd login thanks],
    false, false, false) := by decide +kernel

/-- The answers of the server for IDLE. -/
def idling : ContinuationRequest := .basic none (ascii "...")

set_option synthInstance.maxSize 512 in
/-- The server accepts IDLE and sends data, then the client says that it is done. -/
theorem idle_eq : summary (session (Examples.clientIdle Toy.lib) (Examples.serverIdle Toy.lib expunge) Examples.serverIdleText
    [(false, 100, some (.serverLine (ascii "ok"))), (false, 100, some (.serverLine (ascii "expunge"))),
      (false, 100, some (.clientLine [])), (false, 100, none)]) = some (
    [.enqueueCommand Examples.idleCommand, .setIdleDone], [.idleCommandReceived (ascii "A1"), .idleDoneReceived],
    [.idleAccept idling, .enqueueData expunge, .enqueueStatus (ok "A1" "...")],
    [greeted Examples.serverIdleText, .idleCommandSent hd, .idleAccepted hd idling, .dataReceived expunge, .idleDoneSent hd,
      .statusReceived (ok "A1" "...")], false, false, false) := by decide +kernel

set_option synthInstance.maxSize 512 in
/-- The server has not answered yet. -/
theorem idle_pending_eq : summary (session (Examples.clientIdle Toy.lib) (Examples.serverIdle Toy.lib expunge)
    Examples.serverIdleText [(false, 100, none)]) = some (
    [.enqueueCommand Examples.idleCommand], [.idleCommandReceived (ascii "A1")], [],
    [greeted Examples.serverIdleText, .idleCommandSent hd], true, true, true) := by decide +kernel

set_option synthInstance.maxSize 512 in
/-- The server has accepted IDLE. -/
theorem idle_accepted_eq : summary (session (Examples.clientIdle Toy.lib) (Examples.serverIdle Toy.lib expunge)
    Examples.serverIdleText [(false, 100, some (.serverLine (ascii "ok"))), (false, 100, none)]) = some (
    [.enqueueCommand Examples.idleCommand], [.idleCommandReceived (ascii "A1")], [.idleAccept idling],
    [greeted Examples.serverIdleText, .idleCommandSent hd, .idleAccepted hd idling], true, true, true) := by decide +kernel

set_option synthInstance.maxSize 512 in
/-- The server rejects IDLE, and the client waits. -/
theorem idle_rejected_eq : summary (session (Examples.clientIdle Toy.lib) (Examples.serverIdle Toy.lib expunge)
    Examples.serverIdleText [(false, 100, some (.serverLine (ascii "no"))), (false, 100, none)]) = some (
    [.enqueueCommand Examples.idleCommand], [.idleCommandReceived (ascii "A1")], [.idleReject (no "A1" "...")],
    [greeted Examples.serverIdleText, .idleCommandSent hd, .idleRejected hd (no "A1" "...")], true, true, true) := by
  decide +kernel

end ImapFlow.SessionSample
