import Verif.Proofs.RelayUse
import Verif.Spec.RelaySamples

/-!
# C57: end to end through the proxy

The system of `Spec/Relay.lean`: the user of a client and the user of a server, each with a stream of
`/repo/src/stream.rs`, and the proxy (`/repo/proxy/src/proxy.rs`) between them, each connection with or without TLS.
The environment chooses the calls of the users, how much each read and write transfers, failures of sockets, and the
order.  `GoodRelay` says that the commands are regular, respect the limits of the proxy and of the server, are not
rejected, and that the codec round trip holds for the messages.
-/

namespace ImapFlow

variable {K : Type} {paired : K → K → Prop} {L : Lib} {tc tpc tps ts : Option (Tls K)} {gc gpc gps gs : HandleGenerator}
  {oc : ClientOptions} {op os : ServerOptions} {gr : Greeting} {as : List RelayAct} {r : Relay K} {R : List RelayItem}

/-- The commands that `next` returns to the user of the server are a beginning of those that the user of the client
enqueued: the proxy loses, changes, duplicates, and reorders none, and adds none. -/
theorem C57_commands (hL : L.Lawful) (hP : L.Proxyable) (hop : proxyServerOptions L = .ok op) (hO : ServerOptions.Built L os)
    (hmax : 0 < os.maxCommandSize) (hh1 : Handshaken paired tc tpc) (hh2 : Handshaken paired tps ts)
    (h : (Relay.new tc tpc tps ts gc oc gpc gs os gr).run L gps as = some (r, R)) (hr : RelayAccepted R)
    (hg : GoodRelay L oc op os gr R) :
    (events (streamPart (relayServer R))).filterMap ServerEvent.received? <+: relayedCommands R := by
  obtain ⟨c, s, G1, G2, u⟩ := Relay.used hL hP hop hO hmax hh1 hh2 h hr hg
  obtain ⟨as1, run1⟩ := u.first.run
  obtain ⟨as2, run2⟩ := u.second.run
  have c1 := C51_commands hL (proxyServerOptions_built hL hP hop) (proxyServerOptions_max hop) hh1 run1 u.refused.1
    u.good.1.toGoodSending
  have c2 := C51_commands hL hO hmax hh2 run2 u.refused.2 u.good.2.toGoodSending
  rw [u.first.client.1] at c1
  rw [u.second.server.1, u.commands] at c2
  exact c2.trans c1

/-- The data and statuses that `next` returns to the user of the client are a beginning of those that the user of the
server enqueued, without the capabilities that the proxy does not support. -/
theorem C57_responses (hL : L.Lawful) (hP : L.Proxyable) (hop : proxyServerOptions L = .ok op) (hO : ServerOptions.Built L os)
    (hmax : 0 < os.maxCommandSize) (hh1 : Handshaken paired tc tpc) (hh2 : Handshaken paired tps ts)
    (h : (Relay.new tc tpc tps ts gc oc gpc gs os gr).run L gps as = some (r, R)) (hr : RelayAccepted R)
    (hg : GoodRelay L oc op os gr R) :
    (events (streamPart (relayClient R))).filterMap ClientEvent.told? <+:
      ((streamPart (relayServer R)).filterMap StreamItem.told?).map Response.restrict := by
  obtain ⟨c, s, G1, G2, u⟩ := Relay.used hL hP hop hO hmax hh1 hh2 h hr hg
  obtain ⟨as1, run1⟩ := u.first.run
  obtain ⟨as2, run2⟩ := u.second.run
  have c1 := C51_responses hL (proxyServerOptions_built hL hP hop) (proxyServerOptions_max hop) hh1 run1 u.refused.1 u.good.1
  have c2 := C51_responses hL hO hmax hh2 run2 u.refused.2 u.good.2
  rw [u.first.client.1, u.told] at c1
  rw [u.second.server.1] at c2
  exact c1.trans (c2.map _)

/-- Besides the commands, `next` returns to the user of the server only that the greeting and responses were sent. -/
theorem C57_server_events (hL : L.Lawful) (hP : L.Proxyable) (hop : proxyServerOptions L = .ok op)
    (hO : ServerOptions.Built L os) (hmax : 0 < os.maxCommandSize) (hh1 : Handshaken paired tc tpc)
    (hh2 : Handshaken paired tps ts) (h : (Relay.new tc tpc tps ts gc oc gpc gs os gr).run L gps as = some (r, R))
    (hr : RelayAccepted R) (hg : GoodRelay L oc op os gr R) {e : ServerEvent}
    (he : e ∈ events (streamPart (relayServer R))) :
    (∃ g, e = .greetingSent g) ∨ (∃ hd x, e = .responseSent hd x) ∨ ∃ c, c.isRegular = true ∧ e = .commandReceived c := by
  obtain ⟨c, s, G1, G2, u⟩ := Relay.used hL hP hop hO hmax hh1 hh2 h hr hg
  obtain ⟨as2, run2⟩ := u.second.run
  rw [← u.second.server.1] at he
  exact C51_nothing_else hL hO hmax hh2 run2 u.refused.2 u.good.2.toGoodSending he

/-- `next` returns to the user of the client only that commands were sent, the greeting of the server without the
capabilities that the proxy does not support, responses that the user of the server enqueued (without those
capabilities), and the continuation requests with which the server and the proxy accept literals. -/
theorem C57_client_events (hL : L.Lawful) (hP : L.Proxyable) (hop : proxyServerOptions L = .ok op)
    (hO : ServerOptions.Built L os) (hmax : 0 < os.maxCommandSize) (hh1 : Handshaken paired tc tpc)
    (hh2 : Handshaken paired tps ts) (h : (Relay.new tc tpc tps ts gc oc gpc gs os gr).run L gps as = some (r, R))
    (hr : RelayAccepted R) (hg : GoodRelay L oc op os gr R) {e : ClientEvent}
    (he : e ∈ events (streamPart (relayClient R))) :
    (∃ hd c, e = .commandSent hd c) ∨ e = .greetingReceived gr.restrict ∨
    (∃ x ∈ relayedResponses R, e = x.restrict.report) ∨
    ∃ x mode, e = x.report ∧
      (ServerMessage.response none x ∈ acceptReply L os mode ∨ ServerMessage.response none x ∈ acceptReply L op mode) := by
  obtain ⟨c, s, G1, G2, u⟩ := Relay.used hL hP hop hO hmax hh1 hh2 h hr hg
  obtain ⟨as1, run1⟩ := u.first.run
  rw [← u.first.client.1] at he
  rcases C51_reports hL (proxyServerOptions_built hL hP hop) (proxyServerOptions_max hop) hh1 run1 u.refused.1 u.good.1 he
    with hx | hx | ⟨x, rfl, hx | ⟨mode, hx⟩⟩
  · exact .inl hx
  · exact .inr (.inl hx)
  · obtain ⟨y, rfl, hy | ⟨mode, hy⟩⟩ := u.passed x hx
    · exact .inr (.inr (.inl ⟨y, hy, rfl⟩))
    · exact .inr (.inr (.inr ⟨y, mode, by rw [acceptReply_restrict hy], .inl hy⟩))
  · exact .inr (.inr (.inr ⟨x, mode, rfl, .inr hx⟩))

/-- The first event that `next` returns to the user of the client is the greeting. -/
theorem C57_greeting_first (hL : L.Lawful) (hP : L.Proxyable) (hop : proxyServerOptions L = .ok op)
    (hO : ServerOptions.Built L os) (hmax : 0 < os.maxCommandSize) (hh1 : Handshaken paired tc tpc)
    (hh2 : Handshaken paired tps ts) (h : (Relay.new tc tpc tps ts gc oc gpc gs os gr).run L gps as = some (r, R))
    (hr : RelayAccepted R) (hg : GoodRelay L oc op os gr R) {e : ClientEvent}
    (he : (events (streamPart (relayClient R))).head? = some e) : e = .greetingReceived gr.restrict := by
  obtain ⟨c, s, G1, G2, u⟩ := Relay.used hL hP hop hO hmax hh1 hh2 h hr hg
  obtain ⟨as1, run1⟩ := u.first.run
  rw [← u.first.client.1] at he
  exact C51_greeting_first hL (proxyServerOptions_built hL hP hop) (proxyServerOptions_max hop) hh1 run1 u.refused.1
    u.good.1 he

/-- `next` returns no errors of the client and of the server to the users, nor to the proxy. -/
theorem C57_no_errors (hL : L.Lawful) (hP : L.Proxyable) (hop : proxyServerOptions L = .ok op)
    (hO : ServerOptions.Built L os) (hmax : 0 < os.maxCommandSize) (hh1 : Handshaken paired tc tpc)
    (hh2 : Handshaken paired tps ts) (h : (Relay.new tc tpc tps ts gc oc gpc gs os gr).run L gps as = some (r, R))
    (hr : RelayAccepted R) (hg : GoodRelay L oc op os gr R) :
    (∀ e, .client (.stream (.returned (.error (.state e)))) ∉ R ∧ .proxy (.server (.returned (.error (.state e)))) ∉ R) ∧
    ∀ e, .server (.stream (.returned (.error (.state e)))) ∉ R ∧ .proxy (.client (.returned (.error (.state e)))) ∉ R := by
  obtain ⟨c, s, G1, G2, u⟩ := Relay.used hL hP hop hO hmax hh1 hh2 h hr hg
  obtain ⟨as1, run1⟩ := u.first.run
  obtain ⟨as2, run2⟩ := u.second.run
  obtain ⟨a1, a2⟩ := C51_no_errors hL (proxyServerOptions_built hL hP hop) (proxyServerOptions_max hop) hh1 run1 u.refused.1
    u.good.1
  obtain ⟨b1, b2⟩ := C51_no_errors hL hO hmax hh2 run2 u.refused.2 u.good.2
  rw [u.first.client.1] at a1
  rw [u.first.server.1, streamPart_clientFull] at a2
  rw [u.second.client.1, streamPart_serverFull] at b1
  rw [u.second.server.1] at b2
  refine ⟨fun e => ⟨fun hm => (a1 e).2 ?_, fun hm => (b1 e).2 ?_⟩, fun e => ⟨fun hm => (b2 e).2 ?_, fun hm => (a2 e).2 ?_⟩⟩
  · exact List.mem_filterMap.2 ⟨_, mem_relayClient.2 hm, rfl⟩
  · exact List.mem_filterMap.2 ⟨_, mem_relayProxy.2 hm, rfl⟩
  · exact List.mem_filterMap.2 ⟨_, mem_relayServer.2 hm, rfl⟩
  · exact List.mem_filterMap.2 ⟨_, mem_relayProxy.2 hm, rfl⟩

/-- A run with TLS on both connections in which both users and the proxy wait, two commands were delivered, and data
and a status were returned. -/
example : ∃ r R, Handshaken (· = ·) (some (RelaySample.tls 5 0)) (some (RelaySample.tls 0 5)) ∧
    Handshaken (· = ·) (some (RelaySample.tls 7 3)) (some (RelaySample.tls 3 7)) ∧
    proxyServerOptions Toy.lib = .ok RelaySample.proxyOptions ∧
    ServerOptions.Built Toy.lib ServerSample.options ∧ 0 < ServerSample.options.maxCommandSize ∧
    RelaySample.start.run Toy.lib ClientSample.g RelaySample.acts = some (r, R) ∧ RelayAccepted R ∧
    GoodRelay Toy.lib .default RelaySample.proxyOptions ServerSample.options RelaySample.greeting R ∧ r.Waiting ∧
    relayedCommands R = [NetSample.cmdA, NetSample.cmdC] ∧
    relayedResponses R = [.data RelaySample.caps, .status RelaySample.done] ∧
    (events (streamPart (relayServer R))).filterMap ServerEvent.received? = [NetSample.cmdA, NetSample.cmdC] ∧
    (events (streamPart (relayClient R))).filterMap ClientEvent.told? =
      [.data RelaySample.fewerCaps, .status RelaySample.done] ∧
    .greetingReceived RelaySample.filtered ∈ events (streamPart (relayClient R)) := by
  obtain ⟨r, R, h, hf⟩ := RelaySample.run
  exact ⟨r, R, RelaySample.handshaken 5 0, RelaySample.handshaken 7 3, RelaySample.proxyOptions_eq, StreamNetSample.built,
    by decide, h, hf.accepted, hf.good, hf.waiting, hf.2.2.1, hf.2.2.2.1, hf.2.2.2.2.1⟩

/-- A run without TLS. -/
example : ∃ r R, Handshaken (K := Nat) (· = ·) none none ∧
    RelaySample.plainStart.run Toy.lib ClientSample.g RelaySample.plainActs = some (r, R) ∧ RelayAccepted R ∧
    GoodRelay Toy.lib .default RelaySample.proxyOptions ServerSample.options RelaySample.greeting R ∧ r.Waiting ∧
    relayedCommands R = [NetSample.cmdA, NetSample.cmdC] := by
  obtain ⟨r, R, h, hf⟩ := RelaySample.plain_run
  exact ⟨r, R, trivial, h, hf.accepted, hf.good, hf.waiting, hf.2.2.1⟩

end ImapFlow
