import Verif.Proofs.SessionAuth
import Verif.Spec.SessionSamples

/-!
# C71: a session of the example client and the example server for AUTHENTICATE

`/repo/examples/client_authenticate.rs` is connected to `/repo/examples/server_authenticate.rs`, which asks for data or ends
AUTHENTICATE as `rand::random()` says.  The network delivers the bytes in any portions, the programs are scheduled in any way, and
`rand::random()` returns anything.  `Conversant` says that the messages of the programs are decoded to themselves.
-/

namespace ImapFlow

variable {K : Type} {L : Lib} {gc gs : HandleGenerator} {os : ServerOptions} {tag : Tag}
  {s : Session K Examples.AuthVars Examples.AuthServerVars} {as : List SessionAct} {R : List SessionItem}

/-- Neither program panics as long as the client runs, and the server does not end. -/
theorem C71_runs (hL : L.Lawful) (hE : L.Exemplary) (ho : ServerOptions.default L = .ok os)
    (hc : Conversant L os Examples.serverIdleText [Examples.authCommand tag] (.cancel :: Examples.authDatas) tag authBodies
      authRequests [])
    (h : SessionRuns L gc gs Examples.serverIdleText (Examples.clientAuthenticate L tag) (Examples.serverAuthenticate L) as s R) :
    (s.client.isRunning = true ∧ s.server.isRunning = true) ∨ s.client = .over := by
  rcases (auth_fitting hL hE ho hc).session hE ho (by simp) h with ⟨v, c, w, d, G, n, T, h⟩ | ⟨c, w, d, G, n, T, h⟩
  · exact .inl ⟨by rw [h.client]; rfl, by rw [h.server]; rfl⟩
  · exact .inr h.over

/-- As long as the client runs some step is possible. -/
theorem C71_progress (hL : L.Lawful) (hE : L.Exemplary) (ho : ServerOptions.default L = .ok os)
    (hc : Conversant L os Examples.serverIdleText [Examples.authCommand tag] (.cancel :: Examples.authDatas) tag authBodies
      authRequests [])
    (h : SessionRuns L gc gs Examples.serverIdleText (Examples.clientAuthenticate L tag) (Examples.serverAuthenticate L) as s R)
    (hr : s.client.isRunning = true) : ¬ s.Still L (Examples.clientAuthenticate L tag) (Examples.serverAuthenticate L) := by
  have hf := auth_fitting (gc := gc) (gs := gs) hL hE ho hc
  rcases hf.session hE ho (by simp) h with ⟨v, c, w, d, G, n, T, h⟩ | ⟨c, w, d, G, n, T, h⟩
  · exact fun hs => auth_unstuck hf h (h.still hf hs)
  · rw [h.over] at hr
    cases hr

/-- When the client has ended: it has sent AUTHENTICATE, and for each request for data the next of its data, and to cancel when
there is no more; the server has heard all of it; the server has asked for data as often as there was some, and then it has
said OK with the tag of the command; and the client has got these answers, in this order. -/
theorem C71_over (hL : L.Lawful) (hE : L.Exemplary) (ho : ServerOptions.default L = .ok os)
    (hc : Conversant L os Examples.serverIdleText [Examples.authCommand tag] (.cancel :: Examples.authDatas) tag authBodies
      authRequests [])
    (h : SessionRuns L gc gs Examples.serverIdleText (Examples.clientAuthenticate L tag) (Examples.serverAuthenticate L) as s R)
    (hr : s.client = .over) :
    ∃ (ds : List AuthenticateData) (qs : List ContinuationRequest) (text : Text),
      ds = ([AuthenticateData.continue (ascii "alice"), AuthenticateData.continue (ascii "password")] ++
        List.replicate ds.length AuthenticateData.cancel).take ds.length ∧
      qs.length = ds.length ∧
      programCalls (sessionClient R) =
        .enqueueCommand { tag, body := .authenticate .login none } :: ds.map .setAuthenticateData ∧
      (programEvents (sessionServer R)).filterMap ServerEvent.heard? =
        .commandAuthenticateReceived { tag, mechanism := .login, initialResponse := none } :: ds.map .authenticateDataReceived ∧
      programCalls (sessionServer R) =
        qs.map .authenticateContinue ++ [.authenticateFinish (.tagged tag { kind := .ok, code := none, text })] ∧
      (programEvents (sessionClient R)).filterMap ClientEvent.answer? =
        qs.map .authenticateContinue ++ [.authenticateFinish (.tagged tag { kind := .ok, code := none, text })] := by
  have hf := auth_fitting (gc := gc) (gs := gs) hL hE ho hc
  rcases hf.session hE ho (by simp) h with ⟨v, c, w, d, G, n, T, h'⟩ | ⟨c, w, d, G, n, T, h'⟩
  · rw [h'.client] at hr
    cases hr
  · exact auth_over hE hf h h'

section
variable {a : Nat → SessionAct} {f : Nat → Session K Examples.AuthVars Examples.AuthServerVars} {R : Nat → List SessionItem}

/-- An endless session in which the client does not end: the server asks for data again and again, as often as one likes, and
`rand::random()` returns `true` again and again. -/
theorem C71_ends (hL : L.Lawful) (hE : L.Exemplary) (ho : ServerOptions.default L = .ok os)
    (hc : Conversant L os Examples.serverIdleText [Examples.authCommand tag] (.cancel :: Examples.authDatas) tag authBodies
      authRequests [])
    (h : SessionForever L gc gs Examples.serverIdleText (Examples.clientAuthenticate L tag) (Examples.serverAuthenticate L) a f R)
    (hno : ∀ i, (f i).client ≠ .over) (N : Nat) :
    (∃ i, N ≤ (programCalls (sessionServer (R i))).countP ServerOp.isContinue) ∧ ∃ i, N ≤ i ∧ ∃ act, a i = .server act true := by
  have hrun : ∀ i, (f i).client.isRunning = true := fun i =>
    (C71_runs hL hE ho hc (h i)).elim (fun h => h.1) fun h => (hno i h).elim
  have hf := auth_fitting (gc := gc) (gs := gs) hL hE ho hc
  have mono : ∀ i j, (programCalls (sessionServer (R i))).countP ServerOp.isContinue ≤
      (programCalls (sessionServer (R (i + j)))).countP ServerOp.isContinue := by
    intro i j
    induction j with
    | zero => exact Nat.le_refl _
    | succ j ih =>
      obtain ⟨g, -, hg⟩ := h.step (i + j)
      rw [← Nat.add_assoc, hg, sessionServer_append, programCalls_append, List.countP_append]
      omega
  have often : ∀ N, ∃ i, N ≤ (programCalls (sessionServer (R i))).countP ServerOp.isContinue := by
    intro N
    refine Classical.byContradiction fun hn => ?_
    refine hf.not_forever hE ho (by simp) h hrun (N := 0) (b := 3 + 2 * N) (fun i _ => ?_) fun i => ?_
    · obtain ⟨g, hg, -⟩ := h.step i
      exact Session.no_lines (fun _ _ _ => rfl) (fun _ _ _ => rfl) hg
    · have hb : (programCalls (sessionServer (R i))).countP ServerOp.isContinue ≤ N := by
        rcases Nat.lt_or_ge N ((programCalls (sessionServer (R i))).countP ServerOp.isContinue) with hi | hi
        · exact (hn ⟨i, Nat.le_of_lt hi⟩).elim
        · exact hi
      rcases hf.session hE ho (by simp) (h i) with ⟨v, c, w, d, G, n, T, hl⟩ | ⟨c, w, d, G, n, T, hl⟩
      · have := auth_calls hE hf (h i) hl
        omega
      · exact (hno i hl.over).elim
  refine ⟨often N, Classical.byContradiction fun hcoin => ?_⟩
  have const : ∀ j, (programCalls (sessionServer (R (N + j)))).countP ServerOp.isContinue =
      (programCalls (sessionServer (R N))).countP ServerOp.isContinue := by
    intro j
    induction j with
    | zero => rfl
    | succ j ih =>
      obtain ⟨g, hs, hg⟩ := h.step (N + j)
      rw [← Nat.add_assoc, hg, sessionServer_append, programCalls_append, List.countP_append, ih]
      rcases Session.step_calls (fun _ _ _ => rfl) hs with h1 | ⟨act, coin, w, st, e, w', st', k, h1, h2⟩
      · rw [h1]; rfl
      · cases coin with
        | true => exact (hcoin ⟨N + j, by omega, act, h1⟩).elim
        | false => rw [Examples.serverAuthenticate_false h2]; rfl
  obtain ⟨i, hi⟩ := often ((programCalls (sessionServer (R N))).countP ServerOp.isContinue + 1)
  by_cases hN : i ≤ N
  · have := mono i (N - i)
    rw [show i + (N - i) = N by omega] at this
    omega
  · have := const (i - N)
    rw [show N + (i - N) = i by omega] at this
    omega

end

/-- The server asks for data as long as `rand::random()` says so, and the client cancels again and again: there is a session that
never ends. -/
theorem C71_endless (hL : L.Lawful) (hE : L.Exemplary) (ho : ServerOptions.default L = .ok os)
    (hc : Conversant L os Examples.serverIdleText [Examples.authCommand tag] (.cancel :: Examples.authDatas) tag authBodies
      authRequests []) :
    ∃ a, ∃ f : Nat → Session K Examples.AuthVars Examples.AuthServerVars, ∃ R,
      SessionForever L gc gs Examples.serverIdleText (Examples.clientAuthenticate L tag) (Examples.serverAuthenticate L) a f R ∧
      ∀ i, (f i).client.isRunning = true := by
  have hf := auth_fitting (gc := gc) (gs := gs) hL hE ho hc
  let X := { x : List SessionAct × Session K Examples.AuthVars Examples.AuthServerVars × List SessionItem //
    SessionRuns L gc gs Examples.serverIdleText (Examples.clientAuthenticate L tag) (Examples.serverAuthenticate L) x.1 x.2.1 x.2.2 ∧
    ∀ st, .authenticateFinish st ∉ programCalls (sessionServer x.2.2) }
  have running : ∀ x : X, x.1.2.1.client.isRunning = true := by
    rintro ⟨⟨as, s, R⟩, hx, hno⟩
    rcases C71_runs hL hE ho hc hx with h1 | h1
    · exact h1.1
    · obtain ⟨ds, qs, text, -, -, -, -, h2, -⟩ := C71_over hL hE ho hc hx h1
      exact (hno (.tagged tag { kind := .ok, code := none, text }) (by rw [h2]; simp)).elim
  have next : ∀ x : X, ∃ y : X, ∃ a, y.1.1 = x.1.1 ++ [a] := by
    intro x
    have hrun := running x
    obtain ⟨⟨as, s, R⟩, hx, hno⟩ := x
    have hnotstill : ∃ a s' R', s.step L (Examples.clientAuthenticate L tag) (Examples.serverAuthenticate L) a = some (s', R') ∧
        ∀ act, a ≠ .server act false := by
      rcases hf.session hE ho (by simp) hx with ⟨v, c, w, d, G, n, T, h⟩ | ⟨c, w, d, G, n, T, h⟩
      · rcases h.progress hf (auth_unstuck hf h) with ⟨act, x, h1⟩ | ⟨act, h1⟩
        · exact ⟨_, x.1, x.2, h1, by simp⟩
        · obtain ⟨x, h1⟩ := h1 true
          exact ⟨_, x.1, x.2, h1, by simp⟩
      · have hrun : s.client.isRunning = true := hrun
        rw [h.over] at hrun
        cases hrun
    obtain ⟨a, s', R', h1, h2⟩ := hnotstill
    refine ⟨⟨(as ++ [a], s', R ++ R'), ?_, ?_⟩, a, rfl⟩
    · obtain ⟨server, h3, h4⟩ := hx
      exact ⟨server, h3, Session.run_append h4 (by simp [Session.run, h1])⟩
    · intro st hm
      change _ ∈ programCalls (sessionServer (R ++ R')) at hm
      rw [sessionServer_append, programCalls_append, List.mem_append] at hm
      rcases hm with hm | hm
      · exact hno st hm
      · rcases Session.step_calls (fun _ _ _ => rfl) h1 with h3 | ⟨act, coin, w, st1, e, w', st', k, h3, h4⟩
        · rw [h3] at hm; cases hm
        · cases coin with
          | true => exact Examples.serverAuthenticate_true h4 st hm
          | false => exact h2 act h3
  obtain ⟨o', ho', hstart⟩ := Examples.startServer_ok (K := K) hL hE gs (Examples.serverAuthenticate L)
    (text := Examples.serverIdleText) (by simp)
  let x0 : X := ⟨([], ⟨Examples.startClient (Examples.clientAuthenticate L tag) gc, _, [], []⟩, []), ⟨_, hstart, rfl⟩, by
    intro st hm; cases hm⟩
  let seq : Nat → X := fun i => Nat.rec x0 (fun _ x => Classical.choose (next x)) i
  have hseq : ∀ i, ∃ a, (seq (i + 1)).1.1 = (seq i).1.1 ++ [a] := fun i => Classical.choose_spec (next (seq i))
  refine ⟨fun i => Classical.choose (hseq i), fun i => (seq i).1.2.1, fun i => (seq i).1.2.2, fun i => ?_, fun i => running (seq i)⟩
  have hacts : ∀ i, (seq i).1.1 = (List.range i).map fun i => Classical.choose (hseq i) := by
    intro i
    induction i with
    | zero => rfl
    | succ i ih =>
      rw [List.range_succ, List.map_append, ← ih]
      exact Classical.choose_spec (hseq i)
  rw [← hacts]
  exact (seq i).2.1

/-! ## Concrete cases -/

/-- A session in which the client ends after three requests for data, and one that never ends. -/
example : Conversant Toy.lib SessionSample.options Examples.serverIdleText [Examples.authCommand (ClientSample.str "A")]
      (.cancel :: Examples.authDatas) (ClientSample.str "A") authBodies authRequests [] ∧
    (∃ as, ∃ s : Session Nat Examples.AuthVars Examples.AuthServerVars, ∃ R,
      SessionRuns Toy.lib ClientSample.g ClientSample.g Examples.serverIdleText
        (Examples.clientAuthenticate Toy.lib (ClientSample.str "A")) (Examples.serverAuthenticate Toy.lib) as s R ∧
      s.client = .over ∧ (programCalls (sessionServer R)).length = 4) ∧
    ∃ a, ∃ f : Nat → Session Nat Examples.AuthVars Examples.AuthServerVars, ∃ R,
      SessionForever Toy.lib ClientSample.g ClientSample.g Examples.serverIdleText
        (Examples.clientAuthenticate Toy.lib (ClientSample.str "A")) (Examples.serverAuthenticate Toy.lib) a f R ∧
      ∀ i, (f i).client.isRunning = true := by
  refine ⟨SessionSample.auth_conversant, ?_, C71_endless Toy.lawful Toy.exemplary SessionSample.options_eq
    SessionSample.auth_conversant⟩
  obtain ⟨as, s, R, h1, -, -, h2, -, h3, -⟩ := SessionSample.of_summary SessionSample.auth_eq
  refine ⟨as, s, R, h1, ?_, by rw [h2]; rfl⟩
  rcases C71_runs Toy.lawful Toy.exemplary SessionSample.options_eq SessionSample.auth_conversant h1 with h | h
  · rw [h3] at h; cases h.1
  · exact h

end ImapFlow
