import Verif.Proofs.RelayEnd
import Verif.Spec.RelaySamples

/-!
# C58: the proxy between a client and a server neither stalls nor fails

The system of `Spec/Relay.lean`, see C57.
-/

namespace ImapFlow

variable {K : Type} {paired : K → K → Prop} {L : Lib} {tc tpc tps ts : Option (Tls K)} {gc gpc gps gs : HandleGenerator}
  {oc : ClientOptions} {op os : ServerOptions} {gr : Greeting} {as : List RelayAct} {r : Relay K} {R : List RelayItem}

/-- If both users and the proxy wait and nothing is on the way, everything was done: all commands were delivered to
the user of the server and reported as sent to the user of the client, and all data and statuses were delivered to the
user of the client. -/
theorem C58_no_deadlock (hL : L.Lawful) (hP : L.Proxyable) (hop : proxyServerOptions L = .ok op)
    (hO : ServerOptions.Built L os) (hmax : 0 < os.maxCommandSize) (hh1 : Handshaken paired tc tpc)
    (hh2 : Handshaken paired tps ts) (h : (Relay.new tc tpc tps ts gc oc gpc gs os gr).run L gps as = some (r, R))
    (hr : RelayAccepted R) (hg : GoodRelay L oc op os gr R) (hw : r.Waiting) :
    (events (streamPart (relayServer R))).filterMap ServerEvent.received? = relayedCommands R ∧
    (events (streamPart (relayClient R))).filterMap ClientEvent.sentCommand? = relayedCommands R ∧
    (events (streamPart (relayClient R))).filterMap ClientEvent.told? =
      ((streamPart (relayServer R)).filterMap StreamItem.told?).map Response.restrict := by
  obtain ⟨c, s, G1, G2, u⟩ := Relay.used hL hP hop hO hmax hh1 hh2 h hr hg
  obtain ⟨as1, run1⟩ := u.first.run
  obtain ⟨as2, run2⟩ := u.second.run
  obtain ⟨⟨w1, w2, w3, w4⟩, w5, w6, c', s', hp, w7, w8⟩ := hw
  have hs := u.streams
  rw [hp] at hs
  obtain rfl := hs.1 _ rfl
  obtain rfl := hs.2 _ rfl
  obtain ⟨d1, d2, -, d4⟩ := C51_no_deadlock hL (proxyServerOptions_built hL hP hop) (proxyServerOptions_max hop) hh1 run1
    u.refused.1 u.good.1 ⟨w1, w2, w5, w7⟩
  obtain ⟨e1, -, -, e4⟩ := C51_no_deadlock hL hO hmax hh2 run2 u.refused.2 u.good.2 ⟨w3, w4, w8, w6⟩
  rw [u.first.client.1] at d1 d2 d4
  rw [u.second.server.1] at e1 e4
  refine ⟨?_, d2, ?_⟩
  · rw [e1, u.commands, d1]; rfl
  · rw [d4, u.told, e4]

/-- The client, the proxy, and the server do not panic, no `next` hangs, and TLS does not fail. -/
theorem C58_alive (hL : L.Lawful) (hP : L.Proxyable) (hop : proxyServerOptions L = .ok op)
    (hO : ServerOptions.Built L os) (hmax : 0 < os.maxCommandSize) (hh1 : Handshaken paired tc tpc)
    (hh2 : Handshaken paired tps ts) (h : (Relay.new tc tpc tps ts gc oc gpc gs os gr).run L gps as = some (r, R))
    (hr : RelayAccepted R) (hg : GoodRelay L oc op os gr R) :
    (r.proxy ≠ .dead ∧ r.proxy ≠ .hung) ∧
    (∀ i : TlsItem, .proxy (.clientTls i) ∉ R ∧ .proxy (.serverTls i) ∉ R) ∧
    (.client .hung ∉ R ∧ .client .broken ∉ R ∧ ∀ p, .client (.stream (.panicked p)) ∉ R) ∧
    (.server .hung ∉ R ∧ .server .broken ∉ R ∧ ∀ p, .server (.stream (.panicked p)) ∉ R) := by
  obtain ⟨c, s, G1, G2, u⟩ := Relay.used hL hP hop hO hmax hh1 hh2 h hr hg
  obtain ⟨as1, run1⟩ := u.first.run
  obtain ⟨as2, run2⟩ := u.second.run
  obtain ⟨a1, a2⟩ := C50_alive hL (proxyServerOptions_built hL hP hop) hh1 run1 u.refused.1
  obtain ⟨b1, b2⟩ := C50_alive hL hO hh2 run2 u.refused.2
  have cc : ∀ i, .client i ∉ G1 → .client i ∉ R := fun i hi hx => hi ((u.first.client.2 i).2 (mem_relayClient.2 hx))
  have ss : ∀ i, .server i ∉ G2 → .server i ∉ R := fun i hi hx => hi ((u.second.server.2 i).2 (mem_relayServer.2 hx))
  have pc : ∀ i, .server i ∉ G1 → i ∉ clientFull (relayProxy R) := fun i hi hx => hi ((u.first.server.2 i).2 hx)
  have ps : ∀ i, .client i ∉ G2 → i ∉ serverFull (relayProxy R) := fun i hi hx => hi ((u.second.client.2 i).2 hx)
  have tls : ∀ i : TlsItem, .proxy (.clientTls i) ∉ R ∧ .proxy (.serverTls i) ∉ R := by
    intro i
    constructor <;> intro hx <;> have hx := mem_relayProxy.2 hx
    · cases i with
      | refused => exact pc _ u.refused.1.2 (List.mem_filterMap.2 ⟨_, hx, rfl⟩)
      | broken => exact pc _ a2.2.1 (List.mem_filterMap.2 ⟨_, hx, rfl⟩)
      | hung => exact pc _ a2.1 (List.mem_filterMap.2 ⟨_, hx, rfl⟩)
    · cases i with
      | refused => exact ps _ u.refused.2.1 (List.mem_filterMap.2 ⟨_, hx, rfl⟩)
      | broken => exact ps _ b1.2.1 (List.mem_filterMap.2 ⟨_, hx, rfl⟩)
      | hung => exact ps _ b1.1 (List.mem_filterMap.2 ⟨_, hx, rfl⟩)
  refine ⟨⟨u.alive, fun hx => ?_⟩, tls, ⟨cc _ a1.1, cc _ a1.2.1, fun p => cc _ (a1.2.2 p)⟩,
    ss _ b2.1, ss _ b2.2.1, fun p => ss _ (b2.2.2 p)⟩
  obtain ⟨-, -, -, -, -, ⟨pas, hp⟩, -⟩ := Relay.connections hL hP hop h
  rw [hx] at hp
  obtain ⟨-, T', -, ht | ht⟩ := Proxy.run_inv hL hP hp
  · exact (tls .hung).1 (mem_relayProxy.1 (by rw [ht]; simp))
  · exact (tls .hung).2 (mem_relayProxy.1 (by rw [ht]; simp))

/-- The conversation is over only if a socket of the proxy was closed or failed. -/
theorem C58_open (hL : L.Lawful) (hP : L.Proxyable) (hop : proxyServerOptions L = .ok op)
    (hO : ServerOptions.Built L os) (hmax : 0 < os.maxCommandSize) (hh1 : Handshaken paired tc tpc)
    (hh2 : Handshaken paired tps ts) (h : (Relay.new tc tpc tps ts gc oc gpc gs os gr).run L gps as = some (r, R))
    (hr : RelayAccepted R) (hg : GoodRelay L oc op os gr R) (ho : r.proxy = .over) :
    (∃ i ∈ [.read [], .wrote [], .failed], .proxy (.client i) ∈ R) ∨
    ∃ i ∈ [.read [], .wrote [], .failed], .proxy (.server i) ∈ R := by
  have tls := (C58_alive hL hP hop hO hmax hh1 hh2 h hr hg).2.1
  obtain ⟨c, s, G1, G2, u⟩ := Relay.used hL hP hop hO hmax hh1 hh2 h hr hg
  obtain ⟨as2, run2⟩ := u.second.run
  obtain ⟨-, -, -, -, -, ⟨pas, hp⟩, -⟩ := Relay.connections hL hP hop h
  have he := Proxy.run_ending (T := []) (show (Proxy.start tpc tps gpc).Ending [] from rfl) hp
  rw [ho, List.nil_append] at he
  have hend : ∀ {ε ev ι : Type} (i : StreamItem ε ev ι), i.SocketEnd → i ∈ [.read [], .wrote [], .failed] := by
    intro ε ev ι i hi
    unfold StreamItem.SocketEnd at hi
    split at hi
    · simp
    · simp
    · simp
    · exact hi.elim
  have ev2 : events (atClient G2) = streamEvents (serverSide (relayProxy R)) := by
    rw [u.second.client.1, streamPart_serverFull, events_eq]
  rcases he with ⟨i, hi, hx⟩ | ⟨i, hi, hx⟩ | ⟨i, hi | hi⟩ | ⟨e, hi⟩ | ⟨e, h1, h2⟩
  · exact .inl ⟨i, hend i hx, mem_relayProxy.1 hi⟩
  · exact .inr ⟨i, hend i hx, mem_relayProxy.1 hi⟩
  · exact ((tls i).1 (mem_relayProxy.1 hi)).elim
  · exact ((tls i).2 (mem_relayProxy.1 hi)).elim
  · exfalso
    refine ((C51_no_errors hL hO hmax hh2 run2 u.refused.2 u.good.2).1 e).1 ?_
    rw [u.second.client.1, streamPart_serverFull]
    exact List.mem_filterMap.2 ⟨_, hi, rfl⟩
  · exfalso
    exact h2 gr (C51_greeting_first hL hO hmax hh2 run2 u.refused.2 u.good.2 (by rw [ev2, h1]; rfl))

/-- The conversation is over after the server has closed its connection. -/
example : ∃ r R, RelaySample.start.run Toy.lib ClientSample.g (RelaySample.acts ++ [.proxyServer (.read 20)]) = some (r, R) ∧
    RelayAccepted R ∧
    GoodRelay Toy.lib .default RelaySample.proxyOptions ServerSample.options RelaySample.greeting R ∧ r.proxy = .over :=
  RelaySample.end_run

/-- A run with TLS on both connections in which both users and the proxy wait, two commands were delivered, and data
and a status were returned. -/
example : ∃ r R, Handshaken (· = ·) (some (RelaySample.tls 5 0)) (some (RelaySample.tls 0 5)) ∧
    Handshaken (· = ·) (some (RelaySample.tls 7 3)) (some (RelaySample.tls 3 7)) ∧
    proxyServerOptions Toy.lib = .ok RelaySample.proxyOptions ∧
    ServerOptions.Built Toy.lib ServerSample.options ∧ 0 < ServerSample.options.maxCommandSize ∧
    RelaySample.start.run Toy.lib ClientSample.g RelaySample.acts = some (r, R) ∧ RelayAccepted R ∧
    GoodRelay Toy.lib .default RelaySample.proxyOptions ServerSample.options RelaySample.greeting R ∧ r.Waiting ∧
    relayedCommands R = [NetSample.cmdA, NetSample.cmdC] ∧
    relayedResponses R = [.data RelaySample.caps, .status RelaySample.done] ∧
    (events (streamPart (relayServer R))).filterMap ServerEvent.received? = [NetSample.cmdA, NetSample.cmdC] ∧
    (events (streamPart (relayClient R))).filterMap ClientEvent.told? =
      [.data RelaySample.fewerCaps, .status RelaySample.done] ∧
    .greetingReceived RelaySample.filtered ∈ events (streamPart (relayClient R)) := by
  obtain ⟨r, R, h, hf⟩ := RelaySample.run
  exact ⟨r, R, RelaySample.handshaken 5 0, RelaySample.handshaken 7 3, RelaySample.proxyOptions_eq, StreamNetSample.built,
    by decide, h, hf.accepted, hf.good, hf.waiting, hf.2.2.1, hf.2.2.2.1, hf.2.2.2.2.1⟩

/-- A run without TLS. -/
example : ∃ r R, Handshaken (K := Nat) (· = ·) none none ∧
    RelaySample.plainStart.run Toy.lib ClientSample.g RelaySample.plainActs = some (r, R) ∧ RelayAccepted R ∧
    GoodRelay Toy.lib .default RelaySample.proxyOptions ServerSample.options RelaySample.greeting R ∧ r.Waiting ∧
    relayedCommands R = [NetSample.cmdA, NetSample.cmdC] := by
  obtain ⟨r, R, h, hf⟩ := RelaySample.plain_run
  exact ⟨r, R, trivial, h, hf.accepted, hf.good, hf.waiting, hf.2.2.1⟩

end ImapFlow
