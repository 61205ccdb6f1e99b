import Verif.Proofs.SessionIdle
import Verif.Spec.SessionSamples

/-!
# C72: a session of the example client and the example server for IDLE

`/repo/examples/client_idle.rs` is connected to `/repo/examples/server_idle.rs`.  The user of the server enters `ok` to accept IDLE,
`no` to reject it and `expunge` to send data; the user of the client enters a line to send DONE.  The network delivers the bytes in
any portions, the programs are scheduled in any way, and the users enter any lines at any time.  `Conversant` says that the messages
of the programs are decoded to themselves.
-/

namespace ImapFlow

variable {K : Type} {L : Lib} {gc gs : HandleGenerator} {os : ServerOptions} {expunge : Data}
  {s : Session K Examples.IdleVars Examples.IdleServerVars} {as : List SessionAct} {R : List SessionItem}

/-- Neither program panics as long as the client runs, and the server does not end. -/
theorem C72_runs (hL : L.Lawful) (hE : L.Exemplary) (ho : ServerOptions.default L = .ok os)
    (hc : Conversant L os Examples.serverIdleText [Examples.idleCommand] [] (ascii "A1") idleBodies [ascii "..."] [expunge])
    (h : SessionRuns L gc gs Examples.serverIdleText (Examples.clientIdle L) (Examples.serverIdle L expunge) as s R) :
    (s.client.isRunning = true ∧ s.server.isRunning = true) ∨ s.client = .over := by
  rcases (idle_fitting hL hE ho hc).session hE ho (by simp) h with ⟨v, c, w, d, G, n, T, h⟩ | ⟨c, w, d, G, n, T, h⟩
  · exact .inl ⟨by rw [h.client]; rfl, by rw [h.server]; rfl⟩
  · exact .inr h.over

/-- At rest both programs wait for bytes, and the server has heard IDLE once and nothing else.  The client was told what the user of
the server has entered.  Either the server has not answered, or it has accepted IDLE, or it has rejected it, and the client
has got the answer. -/
theorem C72_rest (hL : L.Lawful) (hE : L.Exemplary) (ho : ServerOptions.default L = .ok os)
    (hc : Conversant L os Examples.serverIdleText [Examples.idleCommand] [] (ascii "A1") idleBodies [ascii "..."] [expunge])
    (h : SessionRuns L gc gs Examples.serverIdleText (Examples.clientIdle L) (Examples.serverIdle L expunge) as s R)
    (hs : s.Still L (Examples.clientIdle L) (Examples.serverIdle L expunge)) (hr : s.client.isRunning = true) :
    s.Waits ∧
    programCalls (sessionClient R) = .enqueueCommand { tag := ascii "A1", body := .idle } ::
      List.replicate ((programInputs (sessionClient R)).countP ProgramInput.isLine) .setIdleDone ∧
    (programEvents (sessionServer R)).filterMap ServerEvent.heard? = [.idleCommandReceived (ascii "A1")] ∧
    (programEvents (sessionClient R)).filterMap ClientEvent.told? =
      List.replicate ((programInputs (sessionServer R)).countP ProgramInput.isExpunge) (.data expunge) ∧
    ((programEvents (sessionClient R)).filterMap ClientEvent.answer? = [] ∨
     (programEvents (sessionClient R)).filterMap ClientEvent.answer? = [.idleAccept (.basic none (ascii "..."))] ∨
     (programEvents (sessionClient R)).filterMap ClientEvent.answer? =
       [.idleReject (.tagged (ascii "A1") { kind := .no, code := none, text := ascii "..." })]) := by
  have hf := idle_fitting (gc := gc) (gs := gs) hL hE ho hc
  rcases hf.session hE ho (by simp) h with ⟨v, c, w, d, G, n, T, h'⟩ | ⟨c, w, d, G, n, T, h'⟩
  · have hw := h'.still hf hs
    refine ⟨hw, ?_, idle_rest hE hf h h' hw⟩
    have hob := h'.link.observed hf.lawful hf.built
    have hcalls := (C66_idle hL h.client).2.2.1
    rw [hcalls]
    split at hcalls
    · exfalso
      obtain ⟨-, -, hinv⟩ := h'.inv
      rw [hob.clientCalls] at hcalls
      cases v with
      | greeting =>
        have : (clientGist (clientItems T)).greeted = true := h'.greeted hf hw
        rw [hinv.1] at this
        cases this
      | idling => obtain ⟨-, -, -, ⟨k, hk⟩, -⟩ := hinv; rw [hk] at hcalls; cases hcalls
      | ending => obtain ⟨-, -, ⟨k, hk⟩, -⟩ := hinv; rw [hk] at hcalls; cases hcalls
    · rename_i he
      rw [if_neg he]
  · rw [h'.over] at hr
    cases hr

/-- When the client has ended: it has sent IDLE, the server has accepted it, the client has sent DONE, and the server has said OK with
the tag of IDLE; before that the client has got data as often as the user of the server has entered `expunge` before DONE. -/
theorem C72_over (hL : L.Lawful) (hE : L.Exemplary) (ho : ServerOptions.default L = .ok os)
    (hc : Conversant L os Examples.serverIdleText [Examples.idleCommand] [] (ascii "A1") idleBodies [ascii "..."] [expunge])
    (h : SessionRuns L gc gs Examples.serverIdleText (Examples.clientIdle L) (Examples.serverIdle L expunge) as s R)
    (hr : s.client = .over) :
    (programEvents (sessionServer R)).filterMap ServerEvent.heard? = [.idleCommandReceived (ascii "A1"), .idleDoneReceived] ∧
    (programEvents (sessionClient R)).filterMap ClientEvent.answer? = [.idleAccept (.basic none (ascii "..."))] ∧
    (programEvents (sessionClient R)).filterMap ClientEvent.told? =
      List.replicate ((beforeDone (programInputs (sessionServer R))).countP ProgramInput.isExpunge) (.data expunge) ++
        [.status (.tagged (ascii "A1") { kind := .ok, code := none, text := ascii "..." })] := by
  have hf := idle_fitting (gc := gc) (gs := gs) hL hE ho hc
  rcases hf.session hE ho (by simp) h with ⟨v, c, w, d, G, n, T, h'⟩ | ⟨c, w, d, G, n, T, h'⟩
  · rw [h'.client] at hr
    cases hr
  · exact idle_over hE hf h h'

/-- A client whose IDLE was rejected never ends: it waits for another status with the tag of IDLE, but the server does not send one. -/
theorem C72_rejected (hL : L.Lawful) (hE : L.Exemplary) (ho : ServerOptions.default L = .ok os)
    (hc : Conversant L os Examples.serverIdleText [Examples.idleCommand] [] (ascii "A1") idleBodies [ascii "..."] [expunge])
    (h : SessionRuns L gc gs Examples.serverIdleText (Examples.clientIdle L) (Examples.serverIdle L expunge) as s R)
    {hd : RawHandle} {st : Status} (hr : .idleRejected hd st ∈ programEvents (sessionClient R)) : s.client.isRunning = true := by
  rcases C72_runs hL hE ho hc h with h1 | h1
  · exact h1.1
  · have h2 : Answer.idleReject st ∈ (programEvents (sessionClient R)).filterMap ClientEvent.answer? :=
      List.mem_filterMap.2 ⟨_, hr, rfl⟩
    rw [(C72_over hL hE ho hc h h1).2.1] at h2
    cases List.mem_singleton.1 h2

section
variable {a : Nat → SessionAct} {f : Nat → Session K Examples.IdleVars Examples.IdleServerVars} {R : Nat → List SessionItem}

/-- An endless session in which the client does not end: the users enter lines again and again. -/
theorem C72_ends (hL : L.Lawful) (hE : L.Exemplary) (ho : ServerOptions.default L = .ok os)
    (hc : Conversant L os Examples.serverIdleText [Examples.idleCommand] [] (ascii "A1") idleBodies [ascii "..."] [expunge])
    (h : SessionForever L gc gs Examples.serverIdleText (Examples.clientIdle L) (Examples.serverIdle L expunge) a f R)
    (hno : ∀ i, (f i).client ≠ .over) (N : Nat) : ∃ i, N ≤ i ∧ ∃ text, a i = .clientLine text ∨ a i = .serverLine text := by
  have hf := idle_fitting (gc := gc) (gs := gs) hL hE ho hc
  refine Classical.byContradiction fun hn => ?_
  have hlines : ∀ i, N ≤ i → ∀ text, a i ≠ .clientLine text ∧ a i ≠ .serverLine text := fun i hi text =>
    ⟨fun h => hn ⟨i, hi, text, .inl h⟩, fun h => hn ⟨i, hi, text, .inr h⟩⟩
  have mono : ∀ i j, sessionLines (R i) ≤ sessionLines (R (i + j)) := by
    intro i j
    induction j with
    | zero => exact Nat.le_refl _
    | succ j ih =>
      obtain ⟨g, -, hg⟩ := h.step (i + j)
      rw [← Nat.add_assoc, hg, sessionLines_append]
      omega
  have const : ∀ j, sessionLines (R (N + j)) = sessionLines (R N) := by
    intro j
    induction j with
    | zero => rfl
    | succ j ih =>
      obtain ⟨g, hs, hg⟩ := h.step (N + j)
      rw [← Nat.add_assoc, hg, sessionLines_append, ih, Session.step_lines hs (hlines _ (by omega)), Nat.add_zero]
  have le : ∀ i, sessionLines (R i) ≤ sessionLines (R N) := by
    intro i
    by_cases hi : i ≤ N
    · have := mono i (N - i)
      rwa [show i + (N - i) = N by omega] at this
    · have := const (i - N)
      rw [show N + (i - N) = i by omega] at this
      omega
  refine hf.not_forever hE ho (by simp) h (fun i => ?_) hlines (b := 3 + sessionLines (R N)) fun i => ?_
  · exact (C72_runs hL hE ho hc (h i)).elim (fun h => h.1) fun h => (hno i h).elim
  · rcases hf.session hE ho (by simp) (h i) with ⟨v, c, w, d, G, n, T, hl⟩ | ⟨c, w, d, G, n, T, hl⟩
    · have h1 := idle_bound hE hf (h i) hl
      have h2 := le i
      unfold sessionLines at h2 ⊢
      omega
    · exact (hno i hl.over).elim

end

/-! ## Concrete cases -/

section
open SessionSample

/-- A session in which the client ends. -/
example : Conversant Toy.lib options Examples.serverIdleText [Examples.idleCommand] [] (ascii "A1") idleBodies [ascii "..."] [SessionSample.expunge] ∧
    ∃ as, ∃ s : Session Nat Examples.IdleVars Examples.IdleServerVars, ∃ R,
      SessionRuns Toy.lib ClientSample.g ClientSample.g Examples.serverIdleText (Examples.clientIdle Toy.lib)
        (Examples.serverIdle Toy.lib SessionSample.expunge) as s R ∧ s.client = .over ∧ (programEvents (sessionClient R)).length = 6 := by
  refine ⟨idle_conversant, ?_⟩
  obtain ⟨as, s, R, h1, -, -, -, h2, h3, -⟩ := of_summary idle_eq
  refine ⟨as, s, R, h1, ?_, by rw [h2]; rfl⟩
  rcases C72_runs Toy.lawful Toy.exemplary options_eq idle_conversant h1 with h | h
  · rw [h3] at h; cases h.1
  · exact h

/-- Sessions that are at rest: the server has not answered, it has accepted IDLE, or it has rejected IDLE. -/
example (X : List Answer) (hX : X ∈ [[], [.idleAccept (.basic none (ascii "..."))], [.idleReject (.tagged (ascii "A1") noBody)]]) :
    ∃ as, ∃ s : Session Nat Examples.IdleVars Examples.IdleServerVars, ∃ R,
      SessionRuns Toy.lib ClientSample.g ClientSample.g Examples.serverIdleText (Examples.clientIdle Toy.lib)
        (Examples.serverIdle Toy.lib SessionSample.expunge) as s R ∧
      s.Still Toy.lib (Examples.clientIdle Toy.lib) (Examples.serverIdle Toy.lib SessionSample.expunge) ∧ s.client.isRunning = true ∧
      (programEvents (sessionClient R)).filterMap ClientEvent.answer? = X := by
  simp only [List.mem_cons, List.not_mem_nil, or_false] at hX
  rcases hX with rfl | rfl | rfl
  · obtain ⟨as, s, R, h1, -, -, -, h2, h3, -, h4⟩ := of_summary idle_pending_eq
    exact ⟨as, s, R, h1, (h4 rfl).still, h3, by rw [h2]; rfl⟩
  · obtain ⟨as, s, R, h1, -, -, -, h2, h3, -, h4⟩ := of_summary idle_accepted_eq
    exact ⟨as, s, R, h1, (h4 rfl).still, h3, by rw [h2]; rfl⟩
  · obtain ⟨as, s, R, h1, -, -, -, h2, h3, -, h4⟩ := of_summary idle_rejected_eq
    exact ⟨as, s, R, h1, (h4 rfl).still, h3, by rw [h2]; rfl⟩

end

end ImapFlow
