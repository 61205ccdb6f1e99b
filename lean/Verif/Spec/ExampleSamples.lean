import Verif.Spec.Examples
import Verif.Spec.ProxySamples

/-!
# Concrete runs of the example programs

Runs with the toy codec, used beside the theorems.
-/

namespace ImapFlow

theorem Toy.exemplary : Toy.lib.Exemplary where
  texts := by decide
  requests := by decide

namespace ExampleSample

open ClientSample (str ln g)

/-- `next` is called. -/
def poll : ProgramAct := .io .poll false

/-- A read completes. -/
def rd (b : Bytes) : ProgramAct := .io (.read b) false

/-- A write completes. -/
def wr (n : Nat) : ProgramAct := .io (.write n) false

/-- What can be compared: the events, the calls, whether the program has ended, and whether it has panicked. -/
def summary {σ S ε ev ι : Type} (x : Option (Running Nat σ S × List (ProgramItem ε ev ι))) :
    Option (List ev × List ι × Bool × Bool) :=
  x.map fun (y, T) => (programEvents T, programCalls T, (match y with | .over => true | _ => false),
    match y with | .dead => true | _ => false)

theorem of_summary {σ S ε ev ι : Type} {x : Option (Running Nat σ S × List (ProgramItem ε ev ι))} {E : List ev} {C : List ι}
    {a b : Bool} (h : summary x = some (E, C, a, b)) : ∃ y T, x = some (y, T) ∧ programEvents T = E ∧ programCalls T = C ∧
      (y = .over ↔ a = true) ∧ (y = .dead ↔ b = true) := by
  cases x with
  | none => cases h
  | some p =>
    obtain ⟨y, T⟩ := p
    simp only [summary, Option.map_some, Option.some.injEq, Prod.mk.injEq] at h
    obtain ⟨rfl, rfl, rfl, rfl⟩ := h
    refine ⟨y, T, rfl, rfl, rfl, ?_⟩
    cases y <;> simp

/-! ## Clients -/

def hd : RawHandle := { generatorId := 7, handleId := 0 }

def greeted : ClientEvent := .greetingReceived { kind := .ok, code := none, text := str "hi" }

/-- LOGIN is sent and answered with BAD, then there is a continuation request. -/
def login : List ProgramAct :=
  [poll, rd (ln "Ghi"), poll, wr 7, poll, rd (ln "bA1 no"), poll, rd (ln "+x")]

def runLogin (as : List ProgramAct) :=
  (Examples.client (str "x")).run (clientMachine Toy.lib) (Examples.startClient (K := Nat) (Examples.client (str "x")) g) as

theorem login_eq : summary (runLogin login) = some (
    [greeted, .commandSent hd (Examples.loginCommand (str "x")),
      .statusReceived (.tagged (str "A1") { kind := .bad, code := none, text := str "no" }),
      .continuationRequestReceived (.basic none (str "x"))],
    [.enqueueCommand (Examples.loginCommand (str "x"))], false, false) := by decide +kernel

/-- Then the server closes the connection. -/
theorem login_closed_eq : summary (runLogin (login ++ [poll, rd []])) = some (
    [greeted, .commandSent hd (Examples.loginCommand (str "x")),
      .statusReceived (.tagged (str "A1") { kind := .bad, code := none, text := str "no" }),
      .continuationRequestReceived (.basic none (str "x"))],
    [.enqueueCommand (Examples.loginCommand (str "x"))], false, true) := by decide +kernel

/-- The server asks for data three times. -/
def authenticate : List ProgramAct :=
  [poll, rd (ln "Ghi"), poll, wr 5, poll, rd (ln "+"), poll, wr 8, rd (ln "+"), poll, wr 11, rd (ln "+"), poll, wr 3,
    rd (ln "*x"), poll, rd (ln "nA no")]

def runAuthenticate (as : List ProgramAct) :=
  (Examples.clientAuthenticate Toy.lib (str "A")).run (clientMachine Toy.lib)
    (Examples.startClient (K := Nat) (Examples.clientAuthenticate Toy.lib (str "A")) g) as

theorem authenticate_eq : summary (runAuthenticate authenticate) = some (
    [greeted, .authenticateStarted hd, .authenticateContinuationRequestReceived hd (.basic none []),
      .authenticateContinuationRequestReceived hd (.basic none []), .authenticateContinuationRequestReceived hd (.basic none []),
      .dataReceived (.other (str "x")), .authenticateStatusReceived hd ⟨str "A", .login, none⟩
        (.tagged (str "A") { kind := .no, code := none, text := str "no" })],
    [.enqueueCommand (Examples.authCommand (str "A")), .setAuthenticateData (.continue (str "alice")),
      .setAuthenticateData (.continue (str "password")), .setAuthenticateData .cancel], true, false) := by decide +kernel

/-- The user enters a line too early, and again after the server has accepted. -/
def idle : List ProgramAct :=
  [poll, rd (ln "Ghi"), poll, .line [], poll, poll, wr 6, rd (ln "+"), poll, rd (ln "*x"), poll, .line [], poll, wr 3, poll,
    rd (ln "oA1 done")]

/-- The server rejects IDLE. -/
def rejected : List ProgramAct :=
  [poll, rd (ln "Ghi"), poll, wr 6, poll, rd (ln "nA1 no"), poll, rd (ln "*x")]

def runIdle (as : List ProgramAct) :=
  (Examples.clientIdle Toy.lib).run (clientMachine Toy.lib) (Examples.startClient (K := Nat) (Examples.clientIdle Toy.lib) g) as

theorem idle_eq : summary (runIdle idle) = some (
    [greeted, .idleCommandSent hd, .idleAccepted hd (.basic none []), .dataReceived (.other (str "x")), .idleDoneSent hd,
      .statusReceived (.tagged (str "A1") { kind := .ok, code := none, text := str "done" })],
    [.enqueueCommand Examples.idleCommand, .setIdleDone, .setIdleDone], true, false) := by decide +kernel

theorem rejected_eq : summary (runIdle rejected) = some (
    [greeted, .idleCommandSent hd, .idleRejected hd (.tagged (str "A1") { kind := .no, code := none, text := str "no" }),
      .dataReceived (.other (str "x"))],
    [.enqueueCommand Examples.idleCommand], false, false) := by decide +kernel

/-! ## Servers -/

/-- A run of a server. -/
def runServer {σ : Type} (P : Program σ Server ServerEvent ServerOp) (text : Text) (as : List ProgramAct) :
    Option (Running Nat σ Server × List (ProgramItem ServerError ServerEvent ServerOp)) :=
  match Examples.startServer (K := Nat) Toy.lib P g text with
  | .error _ => none
  | .ok x => P.run (serverMachine Toy.lib) x as

theorem serverRuns {σ : Type} {P : Program σ Server ServerEvent ServerOp} {text : Text} {as : List ProgramAct}
    {x : Running Nat σ Server} {T : List (ProgramItem ServerError ServerEvent ServerOp)}
    (h : runServer P text as = some (x, T)) : ServerRuns Toy.lib g text P x T := by
  unfold runServer at h
  split at h
  · cases h
  · exact ⟨_, as, by assumption, h⟩

def no (tag text : String) : Status := .tagged (str tag) { kind := .no, code := none, text := str text }

def ok (tag text : String) : Status := .tagged (str tag) { kind := .ok, code := none, text := str text }

def nth (n : UInt64) : RawHandle := { generatorId := 7, handleId := n }

/-- Two commands, then IDLE, then commands that are never reported. -/
def commands : List ProgramAct :=
  [poll, wr 19, poll, rd (ln "A Cx" ++ ln "B Cy" ++ ln "C I" ++ ln "D Cz"), poll, wr 8, poll, poll, wr 8, poll, poll,
    rd (ln "E Cz")]

theorem commands_eq : summary (runServer (Examples.server Toy.lib) Examples.serverText commands) = some (
    [.greetingSent { kind := .ok, code := none, text := Examples.serverText },
      .commandReceived ⟨str "A", .other (str "x")⟩, .responseSent (nth 0) (.status (no "A" "...")),
      .commandReceived ⟨str "B", .other (str "y")⟩, .responseSent (nth 1) (.status (no "B" "...")),
      .idleCommandReceived (str "C")],
    [.enqueueStatus (no "A" "..."), .enqueueStatus (no "B" "...")], false, false) := by decide +kernel

/-- A command, AUTHENTICATE with two rounds of data, AUTHENTICATE without. -/
def rounds : List ProgramAct :=
  [poll, wr 24, poll, rd (ln "A Cx"), poll, wr 28, poll, .io (.read (ln "B A")) true, poll, wr 22, poll,
    .io (.read (ln "Dfoo")) true, poll, wr 13, poll, rd (ln "*"), poll, wr 12, poll, rd (ln "C A"), poll]

theorem rounds_eq : (summary (runServer (Examples.serverAuthenticate Toy.lib) Examples.serverIdleText rounds)).map Prod.snd = some (
    [.enqueueStatus (no "A" "Please use AUTHENTICATE"), .authenticateContinue (.basic none (str "I need more data...")),
      .authenticateContinue (.basic none (str "...more...")), .authenticateFinish (ok "B" "Thanks!"),
      .authenticateFinish (ok "C" "Thanks, that's already enough!")], false, false) := by decide +kernel

/-- The user enters `no` (too early), `expunge`, `ok`; DONE is received; then another IDLE, and the user enters `no`. -/
def idles : List ProgramAct :=
  [poll, wr 24, .line (str "no"), poll, rd (ln "A I"), poll, .line (str "expunge"), poll, wr 4, .line (str "ok"), poll, wr 6,
    poll, rd (ln "D"), poll, wr 8, poll, rd (ln "B I"), .line (str "no"), poll, wr 8]

theorem idles_eq : (summary (runServer (Examples.serverIdle Toy.lib (.other (str "1"))) Examples.serverIdleText idles)).map
    Prod.snd = some (
    [.enqueueData (.other (str "1")), .idleAccept (.basic none (str "...")), .enqueueStatus (ok "A" "..."),
      .idleReject (no "B" "...")], false, false) := by decide +kernel

theorem of_summary_snd {σ S ε ev ι : Type} {x : Option (Running Nat σ S × List (ProgramItem ε ev ι))} {C : List ι}
    {a b : Bool} (h : (summary x).map Prod.snd = some (C, a, b)) : ∃ y T, x = some (y, T) ∧ programCalls T = C ∧
      (y = .over ↔ a = true) ∧ (y = .dead ↔ b = true) := by
  cases hs : summary x with
  | none => rw [hs] at h; cases h
  | some p =>
    obtain ⟨E, q⟩ := p
    rw [hs] at h
    cases h
    obtain ⟨y, T, h1, -, h2⟩ := of_summary hs
    exact ⟨y, T, h1, h2⟩

end ExampleSample

end ImapFlow
