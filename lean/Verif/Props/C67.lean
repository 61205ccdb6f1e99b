import Verif.Proofs.ExampleScripts
import Verif.Spec.ExampleSamples

/-!
# C67: the example servers

`/repo/examples/server.rs`, `server_authenticate.rs` and `server_idle.rs` with any client: the client may send anything, the
connection may fail at any time, the user may enter lines at any time, and `rand::random()` may return anything.  The fixed
texts of the programs must be valid for the codec (`Lib.Exemplary`).
-/

namespace ImapFlow

variable {K : Type} {L : Lib} {g : HandleGenerator} {T : List (ProgramItem ServerError ServerEvent ServerOp)}

/-- No `unwrap()` fails before the first call of `next`. -/
theorem C67_starts {σ : Type} (hL : L.Lawful) (hE : L.Exemplary) (P : Program σ Server ServerEvent ServerOp) :
    (∃ x : Running K σ Server, Examples.startServer L P g Examples.serverText = .ok x) ∧
    ∃ x : Running K σ Server, Examples.startServer L P g Examples.serverIdleText = .ok x := by
  obtain ⟨o1, -, h1⟩ := Examples.startServer_ok (K := K) hL hE g P (text := Examples.serverText) (by simp)
  obtain ⟨o2, -, h2⟩ := Examples.startServer_ok (K := K) hL hE g P (text := Examples.serverIdleText) (by simp)
  exact ⟨⟨_, h1⟩, _, h2⟩

/-- `server.rs`: panics only if `next` fails (the handles are those that it expects); the greeting is sent first; it answers
every regular command that is reported, in order, with one NO with its tag, and makes no other calls; it never ends by
itself. -/
theorem C67_server (hL : L.Lawful) (hE : L.Exemplary) {x : Running K Examples.NoVars Server}
    (h : ServerRuns L g Examples.serverText (Examples.server L) x T) :
    x.Stands T ∧ GreetingSentFirst { kind := .ok, code := none, text := ascii "server (example)" } (programEvents T) ∧ x ≠ .over ∧
    programCalls T = ((programEvents T).filterMap ServerEvent.regular?).map fun c =>
      .enqueueStatus (.tagged c.tag { kind := .no, code := none, text := ascii "..." }) := by
  obtain ⟨o, s, A, -, hA, h1, h2⟩ := ServerKept.runs hL hE (by simp) (fun _ => Examples.server_kept hE) h
  have calls : ∀ v, Examples.NoInv { kind := .ok, code := none, text := Examples.serverText } v A →
      programCalls T = ((programEvents T).filterMap ServerEvent.regular?).map fun c =>
        .enqueueStatus (.tagged c.tag { kind := .no, code := none, text := ascii "..." }) := by
    intro v hI
    rw [← hA.calls, ← hA.events, List.filterMap_filterMap]
    exact hI.2.1
  have hk := hA.kept
  refine ⟨h1, h2, ?_, ?_⟩
  · rintro rfl
    exact hk
  · cases x with
    | running v s => exact calls v hk.2
    | over => exact hk.elim
    | dead => obtain ⟨v, hk⟩ := hk; exact calls v hk

/-- `server.rs` ignores IDLE, and once IDLE is reported, nothing that it receives is reported any more. -/
theorem C67_stuck (hL : L.Lawful) (hE : L.Exemplary) {x : Running K Examples.NoVars Server}
    (h : ServerRuns L g Examples.serverText (Examples.server L) x T) {es1 es2 : List ServerEvent} {tag : Tag}
    (he : programEvents T = es1 ++ .idleCommandReceived tag :: es2) : ∀ e ∈ es2, e.isSent = true := by
  obtain ⟨o, s, A, -, hA, -⟩ := ServerKept.runs hL hE (by simp) (fun _ => Examples.server_kept hE) h
  obtain ⟨-, -, -, hc⟩ := C67_server hL hE h
  refine Server.stuck_events hA.trace ?_ (by rw [hA.events]; exact he)
  rw [hA.calls, hc]
  intro op hop
  obtain ⟨c, -, rfl⟩ := List.mem_map.1 hop
  rfl

/-- Two commands are answered, then there is IDLE, and the commands after it are not reported. -/
example : ∃ x T, ServerRuns (K := Nat) Toy.lib ClientSample.g Examples.serverText (Examples.server Toy.lib) x T ∧ x ≠ .dead ∧
    (programCalls T).length = 2 ∧ ∃ es1, programEvents T = es1 ++ [.idleCommandReceived (ClientSample.str "C")] := by
  obtain ⟨x, T, h1, h2, h3, -, h4⟩ := ExampleSample.of_summary ExampleSample.commands_eq
  exact ⟨x, T, ExampleSample.serverRuns h1, by simpa using h4, by rw [h3]; rfl, (programEvents T).dropLast, by rw [h2]; rfl⟩

/-- `server_authenticate.rs`: panics only if `next` fails (`authenticate_continue` and `authenticate_finish` always succeed,
and the tag is there when it is needed); the greeting is sent first; it answers every regular command with NO, and AUTHENTICATE
and authenticate data with a request for more or with OK, once and in order, and each answer is to the right command in the
right phase; it never ends by itself; and like `server.rs` it is stuck after IDLE. -/
theorem C67_authenticate (hL : L.Lawful) (hE : L.Exemplary) {x : Running K Examples.AuthServerVars Server}
    (h : ServerRuns L g Examples.serverIdleText (Examples.serverAuthenticate L) x T) :
    x.Stands T ∧ GreetingSentFirst { kind := .ok, code := none, text := ascii "server_idle (example)" } (programEvents T) ∧
    x ≠ .over ∧ Answered ((programEvents T).filterMap ServerEvent.ask?) (programCalls T) ∧
    (∃ o s A, ServerOptions.default L = .ok o ∧
      (Server.new g o { kind := .ok, code := none, text := ascii "server_idle (example)" }).trace L
        (serverOps (programStream T)) = .ok (s, A) ∧ OrderlyServer A) ∧
    ∀ es1 tag es2, programEvents T = es1 ++ .idleCommandReceived tag :: es2 → ∀ e ∈ es2, e.isSent = true := by
  obtain ⟨o, s, A, ho, hA, h1, h2⟩ :=
    ServerKept.runs hL hE (by simp) (fun hO => Examples.serverAuthenticate_kept hL hO hE) h
  have answered : Answered ((programEvents T).filterMap ServerEvent.ask?) (programCalls T) := by
    obtain ⟨x0, as, h0, hrun⟩ := h
    obtain ⟨o', ho', h0'⟩ := Examples.startServer_ok (K := K) hL hE g (Examples.serverAuthenticate L)
      (text := Examples.serverIdleText) (by simp)
    rw [h0] at h0'
    cases h0'
    have hO := ServerOptions.Built.default ho'
    obtain ⟨v, hv, -⟩ := Examples.serverAuthenticate_script.server hL hO (Examples.serverAuthenticate_kept hL hO hE) hrun
      fun e es he => ⟨_, (h2 [] e es he).1 rfl⟩
    rw [programEvents_inputs]
    exact hv.1
  have inv : OrderlyServer A ∧ ∀ op ∈ A.filterMap SItem.op?, op.notIdle = true := by
    have hk := hA.kept
    cases x with
    | running v s => exact hk.2.1
    | over => exact hk.elim
    | dead => obtain ⟨v, hk⟩ := hk; exact hk.1
  refine ⟨h1, h2, ?_, answered, ⟨o, s, A, ho, hA.trace, inv.1⟩, fun es1 tag es2 he => ?_⟩
  · rintro rfl
    exact hA.kept
  · exact Server.stuck_events hA.trace inv.2 (by rw [hA.events]; exact he)

/-- AUTHENTICATE with two rounds of data and AUTHENTICATE without. -/
example : ∃ x T, ServerRuns (K := Nat) Toy.lib ClientSample.g Examples.serverIdleText (Examples.serverAuthenticate Toy.lib) x T ∧
    x ≠ .dead ∧ (programCalls T).length = 5 := by
  obtain ⟨x, T, h1, h2, -, h3⟩ := ExampleSample.of_summary_snd ExampleSample.rounds_eq
  exact ⟨x, T, ExampleSample.serverRuns h1, by simpa using h3, by rw [h2]; rfl⟩

/-- `server_idle.rs`: panics only if `next` fails; the greeting is sent first; DONE is answered with OK, the lines of the user
accept IDLE, reject it or send EXPUNGE, and there are no other calls; every response is an answer to something that was asked
before, whatever the user enters; it never ends by itself. -/
theorem C67_idle (hL : L.Lawful) (hE : L.Exemplary) {expunge : Data} {x : Running K Examples.IdleServerVars Server}
    (h : ServerRuns L g Examples.serverIdleText (Examples.serverIdle L expunge) x T) :
    x.Stands T ∧ GreetingSentFirst { kind := .ok, code := none, text := ascii "server_idle (example)" } (programEvents T) ∧
    x ≠ .over ∧ programCalls T = (idleAnswers expunge (programInputs T)).2 ∧
    ∃ o s A, ServerOptions.default L = .ok o ∧
      (Server.new g o { kind := .ok, code := none, text := ascii "server_idle (example)" }).trace L
        (serverOps (programStream T)) = .ok (s, A) ∧ OrderlyServer A := by
  obtain ⟨o, s, A, ho, hA, h1, h2⟩ :=
    ServerKept.runs hL hE (by simp) (fun hO => Examples.serverIdle_kept hL hO hE expunge) h
  have hk := hA.kept
  have calls : programCalls T = (idleAnswers expunge (programInputs T)).2 := by
    obtain ⟨x0, as, h0, hrun⟩ := h
    obtain ⟨o', ho', h0'⟩ := Examples.startServer_ok (K := K) hL hE g (Examples.serverIdle L expunge)
      (text := Examples.serverIdleText) (by simp)
    rw [h0] at h0'
    cases h0'
    have hO := ServerOptions.Built.default ho'
    obtain ⟨v, hv, -⟩ := (Examples.serverIdle_script expunge).server hL hO (Examples.serverIdle_kept hL hO hE expunge) hrun
      fun e es he => ⟨_, (h2 [] e es he).1 rfl⟩
    cases v with
    | greeting => rw [hv.1, hv.2]; rfl
    | running current => rw [show idleAnswers expunge (programInputs T) = _ from hv]
  refine ⟨h1, h2, ?_, calls, o, s, A, ho, hA.trace, ?_⟩
  · rintro rfl
    exact hk
  · cases x with
    | running v s => exact hk.2.1
    | over => exact hk.elim
    | dead => obtain ⟨v, hk⟩ := hk; exact hk.1

/-- The user accepts one IDLE and rejects another one. -/
example : ∃ x T, ServerRuns (K := Nat) Toy.lib ClientSample.g Examples.serverIdleText
    (Examples.serverIdle Toy.lib (.other (ClientSample.str "1"))) x T ∧ x ≠ .dead ∧ (programCalls T).length = 4 := by
  obtain ⟨x, T, h1, h2, -, h3⟩ := ExampleSample.of_summary_snd ExampleSample.idles_eq
  exact ⟨x, T, ExampleSample.serverRuns h1, by simpa using h3, by rw [h2]; rfl⟩

end ImapFlow
