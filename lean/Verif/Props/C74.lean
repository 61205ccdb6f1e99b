import Verif.Proofs.RelayEnd
import Verif.Proofs.RelayMixed
import Verif.Spec.RelayRejectSamples

/-!
# C74: through the proxy, all sides agree about rejected literals

The system of `Spec/Relay.lean`, see C57, if literals may be too long for the proxy or for the server
(`Spec/RelayReject.lean`).
-/

namespace ImapFlow

variable {K : Type} {paired : K → K → Prop} {L : Lib} {tc tpc tps ts : Option (Tls K)} {gc gpc gps gs : HandleGenerator}
  {oc : ClientOptions} {op os : ServerOptions} {gr : Greeting} {as : List RelayAct} {r : Relay K} {R : List RelayItem}

/-- `next` tells the user of the server about each command that the user of the client enqueued and that the proxy
accepts, in order: it returns the command, or an error with exactly the bytes before the literal that is too long. -/
theorem C74_server (hL : L.Lawful) (hP : L.Proxyable) (hop : proxyServerOptions L = .ok op)
    (hO : ServerOptions.Built L os) (hmax : 0 < os.maxCommandSize) (hh1 : Handshaken paired tc tpc)
    (hh2 : Handshaken paired tps ts) (h : (Relay.new tc tpc tps ts gc oc gpc gs os gr).run L gps as = some (r, R))
    (hr : RelayAccepted R) (hg : MixedRelay L oc op os gr R) :
    verdicts (streamPart (relayServer R)) <+: (admittedCommands L op R).map (Command.verdict L os) := by
  obtain ⟨c, s, G1, G2, u⟩ := Relay.mixed hL hP hop hO hmax hh1 hh2 h hr hg
  obtain ⟨as2, run2⟩ := u.second
  rw [← u.server]
  exact (C73_users_server hL hO hmax hh2 run2 u.refused.2 u.users.2).trans (u.admitted.map _)

/-- `next` reports each command to the user of the client as the proxy treats it, in the order in which they were
enqueued: sent, or rejected with the BAD of the proxy. -/
theorem C74_client (hL : L.Lawful) (hP : L.Proxyable) (hop : proxyServerOptions L = .ok op)
    (hO : ServerOptions.Built L os) (hmax : 0 < os.maxCommandSize) (hh1 : Handshaken paired tc tpc)
    (hh2 : Handshaken paired tps ts) (h : (Relay.new tc tpc tps ts gc oc gpc gs os gr).run L gps as = some (r, R))
    (hr : RelayAccepted R) (hg : MixedRelay L oc op os gr R) {k : Nat} {e : ClientEvent}
    (he : ((events (streamPart (relayClient R))).filter ClientEvent.isTerminal)[k]? = some e) :
    ∃ hd c, (relayedCommands R)[k]? = some c ∧ ReportedAs L op (hd, c) e := by
  obtain ⟨c, s, G1, G2, u⟩ := Relay.mixed hL hP hop hO hmax hh1 hh2 h hr hg
  obtain ⟨as1, run1⟩ := u.first
  rw [← u.client] at he
  obtain ⟨hd, c, h1, h2⟩ := C73_users_client hL (proxyServerOptions_built hL hP hop) (proxyServerOptions_max hop) hh1 run1
    u.refused.1 u.users.1 he
  rw [u.client] at h1
  exact ⟨hd, c, h1, h2⟩

/-- What the user of the client is told is what the user of the server said, in order and without what the proxy does not
support, and between it a BAD for each command that the server rejected, in the order of the commands. -/
theorem C74_told (hL : L.Lawful) (hP : L.Proxyable) (hop : proxyServerOptions L = .ok op)
    (hO : ServerOptions.Built L os) (hmax : 0 < os.maxCommandSize) (hh1 : Handshaken paired tc tpc)
    (hh2 : Handshaken paired tps ts) (h : (Relay.new tc tpc tps ts gc oc gpc gs os gr).run L gps as = some (r, R))
    (hr : RelayAccepted R) (hg : MixedRelay L oc op os gr R) :
    ∃ W : List (Response ⊕ Command), (events (streamPart (relayClient R))).filterMap ClientEvent.told? <+: W.map relayedReport ∧
      W.filterMap ofResponse? <+: (streamPart (relayServer R)).filterMap StreamItem.told? ∧
      W.filterMap ofCommand? <+: (admittedCommands L op R).filter fun c => !c.accepted L os := by
  obtain ⟨c, s, G1, G2, u⟩ := Relay.mixed hL hP hop hO hmax hh1 hh2 h hr hg
  obtain ⟨as1, run1⟩ := u.first
  obtain ⟨as2, run2⟩ := u.second
  refine ⟨(events (atClient G2)).filterMap ClientEvent.relayed?, ?_, ?_, ?_⟩
  · rw [← u.relayed hL hO hmax hh2, ← u.client]
    exact C73_users_told hL (proxyServerOptions_built hL hP hop) (proxyServerOptions_max hop) hh1 run1 u.refused.1 u.users.1
  · rw [relayed_responses, ← u.server]
    exact C73_users_told hL hO hmax hh2 run2 u.refused.2 u.users.2
  · rw [relayed_commands, rejected_terminals, rejected_prefix fun k e => C73_users_client hL hO hmax hh2 run2
      u.refused.2 u.users.2]
    exact ((List.take_prefix _ _).trans u.admitted).filter _

/-- Each event of the client is the greeting, the end of a command as the proxy treats it, data or a status of the user of
the server without what the proxy does not support, or a BAD for a command that the server rejects; and `next` of the
client returns no error of the client. -/
theorem C74_client_events (hL : L.Lawful) (hP : L.Proxyable) (hop : proxyServerOptions L = .ok op)
    (hO : ServerOptions.Built L os) (hmax : 0 < os.maxCommandSize) (hh1 : Handshaken paired tc tpc)
    (hh2 : Handshaken paired tps ts) (h : (Relay.new tc tpc tps ts gc oc gpc gs os gr).run L gps as = some (r, R))
    (hr : RelayAccepted R) (hg : MixedRelay L oc op os gr R) :
    (∀ e ∈ events (streamPart (relayClient R)), e = .greetingReceived gr.restrict ∨
      (∃ hd, ∃ c ∈ relayedCommands R, ReportedAs L op (hd, c) e) ∨
      (∃ x ∈ (streamPart (relayServer R)).filterMap StreamItem.told?, e.told? = some x.restrict) ∨
      ∃ c ∈ admittedCommands L op R, c.accepted L os = false ∧ e.told? = some c.rejection) ∧
    ∀ e, .returned (.error (.state e)) ∉ streamPart (relayClient R) := by
  obtain ⟨W, t1, t2, t3⟩ := C74_told hL hP hop hO hmax hh1 hh2 h hr hg
  obtain ⟨c, s, G1, G2, u⟩ := Relay.mixed hL hP hop hO hmax hh1 hh2 h hr hg
  obtain ⟨as1, run1⟩ := u.first
  obtain ⟨h1, h2⟩ := C73_users_events hL (proxyServerOptions_built hL hP hop) (proxyServerOptions_max hop) hh1 run1
    u.refused.1 u.users.1
  rw [u.client] at h1 h2
  refine ⟨fun e he => ?_, h2⟩
  rcases h1 e he with rfl | h3 | ⟨x, -, h3⟩
  · exact .inl rfl
  · exact .inr (.inl h3)
  · obtain ⟨w, hw, rfl⟩ := List.mem_map.1 (t1.subset (List.mem_filterMap.2 ⟨e, he, h3⟩))
    cases w with
    | inl y => exact .inr (.inr (.inl ⟨y, t2.subset (List.mem_filterMap.2 ⟨_, hw, rfl⟩), h3⟩))
    | inr c =>
      obtain ⟨h4, h5⟩ := List.mem_filter.1 (t3.subset (List.mem_filterMap.2 ⟨_, hw, rfl⟩))
      exact .inr (.inr (.inr ⟨c, h4, by simpa using h5, h3⟩))

/-- If both users and the proxy wait and nothing is on the way, the user of the server was told about all commands that
the proxy accepts, the user of the client got a report for each command, and the proxy has put a BAD for each command that
the server rejected between the responses of the server.  If the proxy rejected no command, all of this has reached the
user of the client. -/
theorem C74_no_deadlock (hL : L.Lawful) (hP : L.Proxyable) (hop : proxyServerOptions L = .ok op)
    (hO : ServerOptions.Built L os) (hmax : 0 < os.maxCommandSize) (hh1 : Handshaken paired tc tpc)
    (hh2 : Handshaken paired tps ts) (h : (Relay.new tc tpc tps ts gc oc gpc gs os gr).run L gps as = some (r, R))
    (hr : RelayAccepted R) (hg : MixedRelay L oc op os gr R) (hw : r.Waiting) :
    verdicts (streamPart (relayServer R)) = (admittedCommands L op R).map (Command.verdict L os) ∧
    ((events (streamPart (relayClient R))).filter ClientEvent.isTerminal).length = (relayedCommands R).length ∧
    ∃ W : List (Response ⊕ Command), (events (streamPart (relayClient R))).filterMap ClientEvent.told? <+: W.map relayedReport ∧
      W.filterMap ofResponse? <+: (streamPart (relayServer R)).filterMap StreamItem.told? ∧
      (W.filterMap ofCommand? = (admittedCommands L op R).filter fun c => !c.accepted L os) ∧
      ((∀ c ∈ relayedCommands R, c.accepted L op = true) →
        (events (streamPart (relayClient R))).filterMap ClientEvent.told? = W.map relayedReport) := by
  obtain ⟨c, s, G1, G2, u⟩ := Relay.mixed hL hP hop hO hmax hh1 hh2 h hr hg
  obtain ⟨as1, run1⟩ := u.first
  obtain ⟨as2, run2⟩ := u.second
  obtain ⟨⟨w1, w2, w3, w4⟩, w5, w6, c', s', hp, w7, w8⟩ := hw
  have hs := u.streams
  rw [hp] at hs
  obtain rfl := hs.1 _ rfl
  obtain rfl := hs.2 _ rfl
  have hbp := proxyServerOptions_built hL hP hop
  have hmp := proxyServerOptions_max hop
  obtain ⟨d1, d2⟩ := C73_users_rest hL hbp hmp hh1 run1 u.refused.1 u.users.1 ⟨w1, w2, w5, w7⟩
  obtain ⟨e1, e2⟩ := C73_users_rest hL hO hmax hh2 run2 u.refused.2 u.users.2 ⟨w3, w4, w8, w6⟩
  have ha : (atClient G2).filterMap StreamItem.enqueued? = admittedCommands L op R := by
    have := congrArg (List.filterMap Except.toOption) d1
    rw [received_verdicts, admitted_verdicts, u.client] at this
    rw [u.commands, this]
    rfl
  rw [u.client] at d2
  rw [u.server, ha] at e1
  refine ⟨e1, d2, (events (atClient G2)).filterMap ClientEvent.relayed?, ?_, ?_, ?_, ?_⟩
  · rw [← u.relayed hL hO hmax hh2, ← u.client]
    exact C73_users_told hL hbp hmp hh1 run1 u.refused.1 u.users.1
  · rw [relayed_responses, ← u.server]
    exact C73_users_told hL hO hmax hh2 run2 u.refused.2 u.users.2
  · rw [relayed_commands, rejected_terminals, rejected_prefix fun k e => C73_users_client hL hO hmax hh2 run2
      u.refused.2 u.users.2, e2, List.take_length, ha]
  · intro hacc
    have hgood : GoodUse L oc op gr.restrict G1 := by
      have hu := u.users.1
      have hac : ∀ c ∈ (atClient G1).filterMap StreamItem.enqueued?, c.accepted L op = true := by rwa [u.client]
      refine ⟨⟨hu.regular, hu.roundTrip, fun c hc => hu.fits hc (hac c hc), ?_⟩, hu.greeting, hu.responses, hu.accepts⟩
      intro hd c st hx
      rcases (C73_users_events hL hbp hmp hh1 run1 u.refused.1 hu).1 _ hx with hx | ⟨hd', c', hc', hx⟩ | ⟨x, -, hx⟩
      · cases hx
      · unfold ReportedAs at hx
        rw [if_pos (hac c' hc')] at hx
        cases hx
      · cases hx
    have := (C51_no_deadlock hL hbp hmp hh1 run1 u.refused.1 hgood ⟨w1, w2, w5, w7⟩).2.2.2
    rw [← u.relayed hL hO hmax hh2, ← u.client, this]

/-- The client, the proxy, and the server do not panic, no `next` hangs, and TLS does not fail. -/
theorem C74_alive (hL : L.Lawful) (hP : L.Proxyable) (hop : proxyServerOptions L = .ok op)
    (hO : ServerOptions.Built L os) (hmax : 0 < os.maxCommandSize) (hh1 : Handshaken paired tc tpc)
    (hh2 : Handshaken paired tps ts) (h : (Relay.new tc tpc tps ts gc oc gpc gs os gr).run L gps as = some (r, R))
    (hr : RelayAccepted R) (hg : MixedRelay L oc op os gr R) :
    (r.proxy ≠ .dead ∧ r.proxy ≠ .hung) ∧
    (∀ i : TlsItem, .proxy (.clientTls i) ∉ R ∧ .proxy (.serverTls i) ∉ R) ∧
    (.client .hung ∉ R ∧ .client .broken ∉ R ∧ ∀ p, .client (.stream (.panicked p)) ∉ R) ∧
    (.server .hung ∉ R ∧ .server .broken ∉ R ∧ ∀ p, .server (.stream (.panicked p)) ∉ R) := by
  obtain ⟨c, s, G1, G2, u⟩ := Relay.mixed hL hP hop hO hmax hh1 hh2 h hr hg
  obtain ⟨as1, run1⟩ := u.first
  obtain ⟨as2, run2⟩ := u.second
  obtain ⟨a1, a2⟩ := C50_alive hL (proxyServerOptions_built hL hP hop) hh1 run1 u.refused.1
  obtain ⟨b1, b2⟩ := C50_alive hL hO hh2 run2 u.refused.2
  have cc : ∀ i, .client i ∉ G1 → .client i ∉ R := fun i hi hx => hi ((u.clients.1 i).2 hx)
  have ss : ∀ i, .server i ∉ G2 → .server i ∉ R := fun i hi hx => hi ((u.servers.2 i).2 hx)
  have pc : ∀ i, .server i ∉ G1 → i ∉ clientFull (relayProxy R) := fun i hi hx => hi ((u.servers.1 i).2 hx)
  have ps : ∀ i, .client i ∉ G2 → i ∉ serverFull (relayProxy R) := fun i hi hx => hi ((u.clients.2 i).2 hx)
  have tls : ∀ i : TlsItem, .proxy (.clientTls i) ∉ R ∧ .proxy (.serverTls i) ∉ R := by
    intro i
    constructor <;> intro hx <;> have hx := mem_relayProxy.2 hx
    · cases i with
      | refused => exact pc _ u.refused.1.2 (List.mem_filterMap.2 ⟨_, hx, rfl⟩)
      | broken => exact pc _ a2.2.1 (List.mem_filterMap.2 ⟨_, hx, rfl⟩)
      | hung => exact pc _ a2.1 (List.mem_filterMap.2 ⟨_, hx, rfl⟩)
    · cases i with
      | refused => exact ps _ u.refused.2.1 (List.mem_filterMap.2 ⟨_, hx, rfl⟩)
      | broken => exact ps _ b1.2.1 (List.mem_filterMap.2 ⟨_, hx, rfl⟩)
      | hung => exact ps _ b1.1 (List.mem_filterMap.2 ⟨_, hx, rfl⟩)
  refine ⟨⟨u.alive, fun hx => ?_⟩, tls, ⟨cc _ a1.1, cc _ a1.2.1, fun p => cc _ (a1.2.2 p)⟩,
    ss _ b2.1, ss _ b2.2.1, fun p => ss _ (b2.2.2 p)⟩
  obtain ⟨-, -, -, -, -, ⟨pas, hp⟩, -⟩ := Relay.connections hL hP hop h
  rw [hx] at hp
  obtain ⟨-, T', -, ht | ht⟩ := Proxy.run_inv hL hP hp
  · exact (tls .hung).1 (mem_relayProxy.1 (by rw [ht]; simp))
  · exact (tls .hung).2 (mem_relayProxy.1 (by rw [ht]; simp))

/-- The conversation is over only if a socket of the proxy was closed or failed: neither a literal that is too long nor
anything else that the users do ends it. -/
theorem C74_open (hL : L.Lawful) (hP : L.Proxyable) (hop : proxyServerOptions L = .ok op)
    (hO : ServerOptions.Built L os) (hmax : 0 < os.maxCommandSize) (hh1 : Handshaken paired tc tpc)
    (hh2 : Handshaken paired tps ts) (h : (Relay.new tc tpc tps ts gc oc gpc gs os gr).run L gps as = some (r, R))
    (hr : RelayAccepted R) (hg : MixedRelay L oc op os gr R) (ho : r.proxy = .over) :
    (∃ i ∈ [.read [], .wrote [], .failed], .proxy (.client i) ∈ R) ∨
    ∃ i ∈ [.read [], .wrote [], .failed], .proxy (.server i) ∈ R := by
  have tls := (C74_alive hL hP hop hO hmax hh1 hh2 h hr hg).2.1
  obtain ⟨c, s, G1, G2, u⟩ := Relay.mixed hL hP hop hO hmax hh1 hh2 h hr hg
  obtain ⟨as2, run2⟩ := u.second
  obtain ⟨-, -, -, -, -, ⟨pas, hp⟩, -⟩ := Relay.connections hL hP hop h
  have he := Proxy.run_ending (T := []) (show (Proxy.start tpc tps gpc).Ending [] from rfl) hp
  rw [ho, List.nil_append] at he
  have hend : ∀ {ε ev ι : Type} (i : StreamItem ε ev ι), i.SocketEnd → i ∈ [.read [], .wrote [], .failed] := by
    intro ε ev ι i hi
    unfold StreamItem.SocketEnd at hi
    split at hi
    · simp
    · simp
    · simp
    · exact hi.elim
  have hev : events (atClient G2) = streamEvents (serverSide (relayProxy R)) := by
    rw [u.proxied, events_eq]
  rcases he with ⟨i, hi, hx⟩ | ⟨i, hi, hx⟩ | ⟨i, hi | hi⟩ | ⟨e, hi⟩ | ⟨e, h1, h2⟩
  · exact .inl ⟨i, hend i hx, mem_relayProxy.1 hi⟩
  · exact .inr ⟨i, hend i hx, mem_relayProxy.1 hi⟩
  · exact ((tls i).1 (mem_relayProxy.1 hi)).elim
  · exact ((tls i).2 (mem_relayProxy.1 hi)).elim
  · exfalso
    refine u.users.2.no_errors hL hO hmax hh2 run2 u.refused.2 e ?_
    rw [u.proxied]
    exact List.mem_filterMap.2 ⟨_, hi, rfl⟩
  · exfalso
    exact h2 gr (C73_users_greeting_first hL hO hmax hh2 run2 u.refused.2 u.users.2 (by rw [hev, h1]; rfl))

/-- A run with TLS on both connections in which the server rejects a literal of the second of three commands, and both
users and the proxy wait in the end. -/
example : ∃ r R, Handshaken (· = ·) (some (RelaySample.tls 5 0)) (some (RelaySample.tls 0 5)) ∧
    Handshaken (· = ·) (some (RelaySample.tls 7 3)) (some (RelaySample.tls 3 7)) ∧
    proxyServerOptions Toy.lib = .ok RelaySample.proxyOptions ∧
    ServerOptions.Built Toy.lib ServerSample.options ∧ 0 < ServerSample.options.maxCommandSize ∧
    RelaySample.start.run Toy.lib ClientSample.g (RelayDialogueSample.play RelaySample.start RelayRejectSample.script) =
      some (r, R) ∧ RelayAccepted R ∧
    MixedRelay Toy.lib .default RelaySample.proxyOptions ServerSample.options RelaySample.greeting R ∧ r.Waiting ∧
    (events (streamPart (relayClient R))).filterMap ClientEvent.told? = [.data RelaySample.fewerCaps,
      .status (.tagged (ClientSample.str "X") ⟨.bad, none, ascii "proxy: Command rejected by server"⟩),
      .status (.tagged (ClientSample.str "A") ⟨.bad, none, ClientSample.str "t"⟩)] ∧
    RelayRejectSample.Told R := by
  obtain ⟨r, R, h, hw, hu, ht⟩ := RelayRejectSample.tls_run
  exact ⟨r, R, RelaySample.handshaken 5 0, RelaySample.handshaken 7 3, RelaySample.proxyOptions_eq, StreamNetSample.built,
    by decide, h, hu.1, hu.mixed, hw, ht.2.2, ht⟩

/-- A run without TLS. -/
example : ∃ r R, Handshaken (K := Nat) (· = ·) none none ∧
    RelaySample.plainStart.run Toy.lib ClientSample.g (RelayDialogueSample.play RelaySample.plainStart RelayRejectSample.script) =
      some (r, R) ∧ RelayAccepted R ∧
    MixedRelay Toy.lib .default RelaySample.proxyOptions ServerSample.options RelaySample.greeting R ∧ r.Waiting ∧
    RelayRejectSample.Told R := by
  obtain ⟨r, R, h, hw, hu, ht⟩ := RelayRejectSample.plain_run
  exact ⟨r, R, trivial, h, hu.1, hu.mixed, hw, ht⟩

/-- The conversation is over after the server has closed its connection. -/
example : ∃ r R, RelaySample.start.run Toy.lib ClientSample.g
      (RelayDialogueSample.play RelaySample.start RelayRejectSample.script ++ [.proxyServer (.read 20)]) = some (r, R) ∧
    RelayAccepted R ∧
    MixedRelay Toy.lib .default RelaySample.proxyOptions ServerSample.options RelaySample.greeting R ∧ r.proxy = .over := by
  obtain ⟨r, R, h, hu, ho⟩ := RelayRejectSample.end_run
  exact ⟨r, R, h, hu.1, hu.mixed, ho⟩

end ImapFlow
