import Verif.Proofs.SessionLogin
import Verif.Spec.SessionSamples

/-!
# C70: a session of the example client and the example server

`/repo/examples/client.rs` is connected to `/repo/examples/server.rs`.  The network delivers the bytes in any portions, and the
programs are scheduled in any way.  `Conversant` says that the greeting, LOGIN and its answer are decoded to themselves.
-/

namespace ImapFlow

variable {K : Type} {L : Lib} {gc gs : HandleGenerator} {os : ServerOptions} {login : Bytes}
  {s : Session K Examples.LoginVars Examples.NoVars} {as : List SessionAct} {R : List SessionItem}

/-- Neither program ends or panics, and together they make at most three calls. -/
theorem C70_runs (hL : L.Lawful) (hE : L.Exemplary) (ho : ServerOptions.default L = .ok os)
    (hc : Conversant L os Examples.serverText [Examples.loginCommand login] [] (ascii "A1") [noBody] [] [])
    (h : SessionRuns L gc gs Examples.serverText (Examples.client login) (Examples.server L) as s R) :
    s.client.isRunning = true ∧ s.server.isRunning = true ∧
    (programCalls (sessionClient R)).length + (programCalls (sessionServer R)).length ≤ 3 := by
  obtain ⟨v, c, w, d, G, n, T, hl⟩ := login_live hL hE ho hc h
  exact ⟨by rw [hl.client]; rfl, by rw [hl.server]; rfl, login_calls hL hE ho hc hl⟩

/-- Every session comes to rest. -/
theorem C70_finite (hL : L.Lawful) (hE : L.Exemplary) (ho : ServerOptions.default L = .ok os)
    (hc : Conversant L os Examples.serverText [Examples.loginCommand login] [] (ascii "A1") [noBody] [] [])
    {a : Nat → SessionAct} {f : Nat → Session K Examples.LoginVars Examples.NoVars} {R : Nat → List SessionItem} :
    ¬ SessionForever L gc gs Examples.serverText (Examples.client login) (Examples.server L) a f R := by
  intro h
  refine (login_fitting hL hE ho hc).not_forever hE ho (by simp) h (fun i => (C70_runs hL hE ho hc (h i)).1) (N := 0) ?_
    (fun i => (C70_runs hL hE ho hc (h i)).2.2)
  intro i _
  obtain ⟨g, hg, -⟩ := h.step i
  exact Session.no_lines (fun _ _ _ => rfl) (fun _ _ _ => rfl) hg

/-- At rest both programs wait for bytes.  LOGIN was enqueued once and received once, it was answered with NO once, and the
client got the answer once, after LOGIN was reported as sent. -/
theorem C70_rest (hL : L.Lawful) (hE : L.Exemplary) (ho : ServerOptions.default L = .ok os)
    (hc : Conversant L os Examples.serverText [Examples.loginCommand login] [] (ascii "A1") [noBody] [] [])
    (h : SessionRuns L gc gs Examples.serverText (Examples.client login) (Examples.server L) as s R)
    (hs : s.Still L (Examples.client login) (Examples.server L)) :
    s.Waits ∧
    programCalls (sessionClient R) = [.enqueueCommand { tag := ascii "A1", body := .other login }] ∧
    (programEvents (sessionServer R)).filterMap ServerEvent.heard? =
      [.commandReceived { tag := ascii "A1", body := .other login }] ∧
    programCalls (sessionServer R) = [.enqueueStatus (.tagged (ascii "A1") noBody)] ∧
    (programEvents (sessionClient R)).filterMap ClientEvent.told? = [.status (.tagged (ascii "A1") noBody)] ∧
    ∃ hd, (programEvents (sessionClient R)).filter ClientEvent.isTerminal =
        [.commandSent hd { tag := ascii "A1", body := .other login }] ∧
      ∃ E1 E2, programEvents (sessionClient R) = E1 ++ .statusReceived (.tagged (ascii "A1") noBody) :: E2 ∧
        .commandSent hd { tag := ascii "A1", body := .other login } ∈ E1 := by
  obtain ⟨v, c, w, d, G, n, T, hl⟩ := login_live hL hE ho hc h
  have hw := hl.still (login_fitting hL hE ho hc) hs
  exact ⟨hw, login_rest hL hE ho hc hl hw⟩

/-! ## Concrete case -/

/-- A session that comes to rest. -/
example : Conversant Toy.lib SessionSample.options Examples.serverText [Examples.loginCommand (ClientSample.str "x")] []
      (ascii "A1") [noBody] [] [] ∧
    ∃ as s R, SessionRuns Toy.lib ClientSample.g ClientSample.g Examples.serverText
      (Examples.client (ClientSample.str "x")) (Examples.server Toy.lib) as s R ∧
      Session.Still (K := Nat) Toy.lib (Examples.client (ClientSample.str "x")) (Examples.server Toy.lib) s ∧
      (programEvents (sessionClient R)).length = 3 := by
  obtain ⟨as, s, R, h1, -, -, -, h2, -, -, h3⟩ := SessionSample.of_summary SessionSample.login_eq
  exact ⟨SessionSample.login_conversant, as, s, R, h1, (h3 rfl).still, by rw [h2]; rfl⟩

end ImapFlow
