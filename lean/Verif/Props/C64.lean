import Verif.Proofs.RelayTurn
import Verif.Spec.RelayDialogueSamples

/-!
# C64: through the proxy, dialogues stay in step

AUTHENTICATE and IDLE with the proxy (`/repo/proxy/src/proxy.rs:220-376`) between the client and the server; each of the
two connections is with or without TLS.  What the users asked for is read off `A` and `S`, the records of the calls that
the streams and the users made on the client and on the server with the results of these calls (these calls never panic,
see C07 and C08, so there always is such a record).  The theorems assume nothing about what happens inside the proxy except
that rustls refused no plaintext.
-/

namespace ImapFlow

variable {K : Type} {paired : K → K → Prop} {L : Lib} {tc tpc tps ts : Option (Tls K)} {gc gpc gps gs : HandleGenerator}
  {oc : ClientOptions} {op os : ServerOptions} {gr : Greeting} {r : Relay K} {R : List RelayItem} {as : List RelayAct}
  {c : Client} {s : Server} {A : List CItem} {S : List SItem}

/-- The user of the server gets what the user of the client says, in order: commands, authenticate data and DONE. -/
theorem C64_heard (hL : L.Lawful) (hP : L.Proxyable) (hopt : proxyServerOptions L = .ok op) (hO : ServerOptions.Built L os)
    (hmax : 0 < os.maxCommandSize) (hc : Handshaken paired tc tpc) (hv : Handshaken paired tps ts)
    (h : (Relay.new tc tpc tps ts gc oc gpc gs os gr).run L gps as = some (r, R)) (hr : RelayAccepted R)
    (hA : (Client.new gc oc).trace L (clientOps (streamPart (relayClient R))) = .ok (c, A))
    (hS : (Server.new gs os gr).trace L (serverOps (streamPart (relayServer R))) = .ok (s, S))
    (hU : RelayUsers L oc .default op os gr A S) :
    (events (streamPart (relayServer R))).filterMap ServerEvent.heard? <+: (ClientView.of A).said := by
  obtain ⟨V, U, he⟩ := Relay.ends hL hP hopt hO hmax hc hv h hr hA hS hU
  rw [Server.events_heard hS he.serverRecord (Relay.run_events hL hP hopt h).2]
  obtain ⟨D, fl, h1⟩ := he.near
  obtain ⟨D', fl', h2⟩ := he.far
  have k1 : serverHeard S <+: (ClientView.of U).said := ⟨D', h2.core.said.symm⟩
  have k2 : serverHeard V <+: (ClientView.of A).said := ⟨D, h1.core.said.symm⟩
  rw [he.coupled.heard] at k2
  exact (k1.trans (ClientView.said_fed _)).trans k2

/-- The user of the client gets the answers of the user of the server, in order and each as what it is, and the user of
the server is never more than two answers ahead. -/
theorem C64_answers (hL : L.Lawful) (hP : L.Proxyable) (hopt : proxyServerOptions L = .ok op) (hO : ServerOptions.Built L os)
    (hmax : 0 < os.maxCommandSize) (hc : Handshaken paired tc tpc) (hv : Handshaken paired tps ts)
    (h : (Relay.new tc tpc tps ts gc oc gpc gs os gr).run L gps as = some (r, R)) (hr : RelayAccepted R)
    (hA : (Client.new gc oc).trace L (clientOps (streamPart (relayClient R))) = .ok (c, A))
    (hS : (Server.new gs os gr).trace L (serverOps (streamPart (relayServer R))) = .ok (s, S))
    (hU : RelayUsers L oc .default op os gr A S) :
    (events (streamPart (relayClient R))).filterMap ClientEvent.answer? <+: serverAnswers S ∧
    (serverAnswers S).length ≤ ((events (streamPart (relayClient R))).filterMap ClientEvent.answer?).length + 2 := by
  obtain ⟨V, U, he⟩ := Relay.ends hL hP hopt hO hmax hc hv h hr hA hS hU
  rw [Client.events_answers hL hA he.clientRecord (Relay.run_events hL hP hopt h).1]
  obtain ⟨D, fl, h1⟩ := he.near
  obtain ⟨D', fl', h2⟩ := he.far
  have one : ∀ fl : Option Underway, (flightAnswers fl).length ≤ 1 := by
    intro fl
    unfold flightAnswers
    split <;> simp
  have e : serverAnswers S = clientAnswers A ++ (flightAnswers fl ++ flightAnswers fl') := by
    rw [h2.answers, ← he.coupled.answers, h1.answers, List.append_assoc]
  refine ⟨⟨_, e.symm⟩, ?_⟩
  rw [e, List.length_append, List.length_append]
  have := one fl
  have := one fl'
  omega

/-- `next` returns to the user of the client neither a rejected command nor a continuation request it did not wait for,
and to neither user an error of the client or of the server. -/
theorem C64_expected (hL : L.Lawful) (hP : L.Proxyable) (hopt : proxyServerOptions L = .ok op) (hO : ServerOptions.Built L os)
    (hmax : 0 < os.maxCommandSize) (hc : Handshaken paired tc tpc) (hv : Handshaken paired tps ts)
    (h : (Relay.new tc tpc tps ts gc oc gpc gs os gr).run L gps as = some (r, R)) (hr : RelayAccepted R)
    (hA : (Client.new gc oc).trace L (clientOps (streamPart (relayClient R))) = .ok (c, A))
    (hS : (Server.new gs os gr).trace L (serverOps (streamPart (relayServer R))) = .ok (s, S))
    (hU : RelayUsers L oc .default op os gr A S) :
    (∀ hd cmd st, .commandRejected hd cmd st ∉ events (streamPart (relayClient R))) ∧
    (∀ q, .continuationRequestReceived q ∉ events (streamPart (relayClient R))) ∧
    (∀ e, .returned (.error (.state e)) ∉ streamPart (relayClient R)) ∧
    ∀ e, .returned (.error (.state e)) ∉ streamPart (relayServer R) := by
  obtain ⟨V, U, he⟩ := Relay.ends hL hP hopt hO hmax hc hv h hr hA hS hU
  obtain ⟨ec, es⟩ := Relay.run_events hL hP hopt h
  obtain ⟨D, fl, h1⟩ := he.near
  obtain ⟨D', fl', h2⟩ := he.far
  have key : ∀ e, e ∈ events (streamPart (relayClient R)) → ∃ i ∈ A, i.result? = some (.ok e) := by
    intro e hm
    rw [ec, ← List.filterMap_filterMap, ← he.clientRecord.results] at hm
    obtain ⟨r, h5, h6⟩ := List.mem_filterMap.1 hm
    obtain ⟨i, h7, h8⟩ := List.mem_filterMap.1 h5
    refine ⟨i, h7, ?_⟩
    rw [h8]
    cases r <;> simp [Except.toOption] at h6
    rw [h6]
  have guard : ∀ {i}, i ∈ A → ∃ v, Client.Guard L oc.crlfRelaxed v i := by
    intro i hi
    obtain ⟨a, b, hab⟩ := List.append_of_mem hi
    have hA' := hA
    rw [hab] at hA'
    exact ⟨_, Client.trace_guard hL hA'⟩
  obtain ⟨s1, s2⟩ := Relay.run_state_error hL hP hopt h
  refine ⟨?_, ?_, ?_, ?_⟩
  · intro hd cmd st hm
    obtain ⟨i, h7, h8⟩ := key _ hm
    obtain ⟨v, hv⟩ := guard h7
    cases i with
    | sent e => obtain ⟨-, hd, cmd, q, -, ⟨rfl, -⟩ | ⟨rfl, -⟩ | ⟨rfl, -⟩ | ⟨rfl, -⟩⟩ := hv <;> simp [CItem.result?, CItem.erase] at h8
    | received w e =>
      simp [CItem.result?, CItem.erase] at h8
      subst h8
      exact h1.expected _ h7
    | _ => simp [CItem.result?, CItem.erase] at h8
  · intro q hm
    obtain ⟨i, h7, h8⟩ := key _ hm
    obtain ⟨v, hv⟩ := guard h7
    cases i with
    | sent e => obtain ⟨-, hd, cmd, q, -, ⟨rfl, -⟩ | ⟨rfl, -⟩ | ⟨rfl, -⟩ | ⟨rfl, -⟩⟩ := hv <;> simp [CItem.result?, CItem.erase] at h8
    | received w e =>
      simp [CItem.result?, CItem.erase] at h8
      subst h8
      exact h1.expected _ h7
    | _ => simp [CItem.result?, CItem.erase] at h8
  · exact fun e hm => he.clientRecord.no_errors (fun e hm => h1.expected _ hm) (s1 e hm)
  · exact fun e hm => he.serverRecord.no_errors h2.accepted (s2 e hm)

/-- The proxy does not panic and does not spin. -/
theorem C64_proxy (hL : L.Lawful) (hP : L.Proxyable) (hopt : proxyServerOptions L = .ok op) (hO : ServerOptions.Built L os)
    (hmax : 0 < os.maxCommandSize) (hc : Handshaken paired tc tpc) (hv : Handshaken paired tps ts)
    (h : (Relay.new tc tpc tps ts gc oc gpc gs os gr).run L gps as = some (r, R)) (hr : RelayAccepted R)
    (hA : (Client.new gc oc).trace L (clientOps (streamPart (relayClient R))) = .ok (c, A))
    (hS : (Server.new gs os gr).trace L (serverOps (streamPart (relayServer R))) = .ok (s, S))
    (hU : RelayUsers L oc .default op os gr A S) :
    (∀ p, .proxy (.panicked p) ∉ R) ∧ r.proxy ≠ .dead ∧ r.proxy ≠ .hung := by
  obtain ⟨V, U, he⟩ := Relay.ends hL hP hopt hO hmax hc hv h hr hA hS hU
  exact ⟨he.calm, he.alive⟩

/-- If everything waits and nothing is on the way, both users got everything, and both agree which of them has to act:
the proxy never is the one to wait for. -/
theorem C64_turn (hL : L.Lawful) (hP : L.Proxyable) (hopt : proxyServerOptions L = .ok op) (hO : ServerOptions.Built L os)
    (hmax : 0 < os.maxCommandSize) (hc : Handshaken paired tc tpc) (hv : Handshaken paired tps ts)
    (h : (Relay.new tc tpc tps ts gc oc gpc gs os gr).run L gps as = some (r, R)) (hr : RelayAccepted R)
    (hA : (Client.new gc oc).trace L (clientOps (streamPart (relayClient R))) = .ok (c, A))
    (hS : (Server.new gs os gr).trace L (serverOps (streamPart (relayServer R))) = .ok (s, S))
    (hU : RelayUsers L oc .default op os gr A S) (hw : r.Waiting) :
    (events (streamPart (relayServer R))).filterMap ServerEvent.heard? = (ClientView.of A).said ∧
    (events (streamPart (relayClient R))).filterMap ClientEvent.answer? = serverAnswers S ∧
    Turn (ClientView.of A) (serverPhase S) (serverDialogue S) := by
  obtain ⟨V, U, he⟩ := Relay.ends hL hP hopt hO hmax hc hv h hr hA hS hU
  obtain ⟨ec, es⟩ := Relay.run_events hL hP hopt h
  obtain ⟨x1, x2, x3, y1, y2, y3⟩ := he.still hw
  rw [Server.events_heard hS he.serverRecord es, Client.events_answers hL hA he.clientRecord ec]
  refine ⟨?_, ?_, Turn.through he.coupled he.now x3 y3⟩
  · rw [y1, y3.said_fed he.coupled he.now, ← he.coupled.heard, x1]
  · rw [x2, he.coupled.answers, y2]

/-- AUTHENTICATE, an accepted and a rejected IDLE between other commands, with TLS on both connections and capabilities
that the proxy does not support; then everything is done. -/
example : ∃ r R c A s S, (Handshaken (· = ·) (some (RelaySample.tls 5 0)) (some (RelaySample.tls 0 5)) ∧
    Handshaken (· = ·) (some (RelaySample.tls 7 3)) (some (RelaySample.tls 3 7))) ∧
    proxyServerOptions Toy.lib = .ok RelaySample.proxyOptions ∧
    RelaySample.start.run Toy.lib ClientSample.g (RelayDialogueSample.play RelaySample.start RelayDialogueSample.script) =
      some (r, R) ∧ r.Waiting ∧ RelayAccepted R ∧ RelayDialogueSample.clientTrace R = .ok (c, A) ∧
    RelayDialogueSample.serverTrace R = .ok (s, S) ∧
    RelayUsers Toy.lib .default .default RelaySample.proxyOptions ServerSample.options RelaySample.greeting A S ∧
    RelayDialogueSample.Played R := by
  obtain ⟨r, R, h1, h2, h3, h4⟩ := RelayDialogueSample.tls_run
  obtain ⟨h5, c, A, s, S, h6, h7, h8⟩ := h3.hypotheses
  exact ⟨r, R, c, A, s, S, ⟨RelaySample.handshaken 5 0, RelaySample.handshaken 7 3⟩, RelaySample.proxyOptions_eq, h1, h2.waiting, h5,
    h6, h7, h8, h4⟩

/-- The same without TLS. -/
example : ∃ r R c A s S,
    RelaySample.plainStart.run Toy.lib ClientSample.g (RelayDialogueSample.play RelaySample.plainStart RelayDialogueSample.script) =
      some (r, R) ∧ r.Waiting ∧ RelayAccepted R ∧ RelayDialogueSample.clientTrace R = .ok (c, A) ∧
    RelayDialogueSample.serverTrace R = .ok (s, S) ∧
    RelayUsers Toy.lib .default .default RelaySample.proxyOptions ServerSample.options RelaySample.greeting A S ∧
    RelayDialogueSample.Played R := by
  obtain ⟨r, R, h1, h2, h3, h4⟩ := RelayDialogueSample.plain_run
  obtain ⟨h5, c, A, s, S, h6, h7, h8⟩ := h3.hypotheses
  exact ⟨r, R, c, A, s, S, h1, h2.waiting, h5, h6, h7, h8, h4⟩

/-- Every kind of standstill occurs. -/
example : ∀ x ∈ [(1, ServerPhase.authenticate, 2, 0), (2, .authenticate, 2, 1), (3, .authenticate, 3, 1),
    (4, .idlePending, 4, 2), (5, .idle, 4, 3), (6, .idlePending, 6, 3), (7, .command, 7, 4)],
    RelayDialogueSample.Checked (RelaySample.start.run Toy.lib ClientSample.g
      (RelayDialogueSample.play RelaySample.start (RelayDialogueSample.script.take x.1)))
      (RelayDialogueSample.Stage x.2.1 x.2.2.1 x.2.2.2) := RelayDialogueSample.stages

end ImapFlow
