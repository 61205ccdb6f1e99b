import Verif.Proofs.Relay
import Verif.Props.C40
import Verif.Props.C41
import Verif.Props.C42
import Verif.Props.C50
import Verif.Props.C51

/-!
# Through the proxy: the users of both connections
-/

namespace ImapFlow

variable {K : Type} {paired : K → K → Prop} {L : Lib} {tc tpc tps ts : Option (Tls K)} {gc gpc gps gs : HandleGenerator}
  {oc : ClientOptions} {op os : ServerOptions} {gr : Greeting} {as : List RelayAct} {r : Relay K} {R : List RelayItem}

theorem events_eq {ε ev ι : Type} (S : List (StreamItem ε ev ι)) : events S = streamEvents S := by
  unfold events streamEvents
  congr 1

theorem proxyServerOptions_max {o : ServerOptions} (h : proxyServerOptions L = .ok o) : 0 < o.maxCommandSize := by
  simp only [proxyServerOptions] at h
  split at h
  · cases h
  rename_i o0 h0
  split at h
  · cases h
  rename_i o1 r1 h1
  split at h
  · cases h
  split at h
  · cases h
  rename_i o2 r2 h2
  split at h
  · cases h
  cases h
  have e0 : o0.maxCommandSize = 25 * 1024 * 1024 + 64 * 1024 := by
    unfold ServerOptions.default at h0
    split at h0 <;> cases h0 <;> rfl
  have e1 : o1.maxCommandSize = o0.maxCommandSize := by
    unfold ServerOptions.setLiteralAcceptText at h1
    repeat' split at h1
    all_goals first | (cases h1; done) | (cases h1; rfl)
  have e2 : o.maxCommandSize = o1.maxCommandSize := by
    unfold ServerOptions.setLiteralRejectText at h2
    repeat' split at h2
    all_goals first | (cases h2; done) | (cases h2; rfl)
  omega

theorem proxyServerOptions_built {o : ServerOptions} (hL : L.Lawful) (hP : L.Proxyable) (h : proxyServerOptions L = .ok o) :
    ServerOptions.Built L o := by
  obtain ⟨o', ho', hb⟩ := proxyServerOptions_ok hL hP
  rw [h] at ho'
  cases ho'
  exact hb

/-- What is known about one connection. -/
structure Connection (L : Lib) (start sn : StreamNet K) (G : List StreamNetItem)
    (C : List (FullItem ClientError ClientEvent ClientOp)) (S : List (FullItem ServerError ServerEvent ServerOp)) : Prop where
  run : ∃ as, start.run L as = some (sn, G)
  client : atClient G = streamPart C ∧ ∀ i, .client i ∈ G ↔ i ∈ C
  server : atServer G = streamPart S ∧ ∀ i, .server i ∈ G ↔ i ∈ S

theorem Hop.connection {start : StreamNet K} {up down : Bytes} {C : List (FullItem ClientError ClientEvent ClientOp)}
    {S : List (FullItem ServerError ServerEvent ServerOp)} {c : FullStream K Client} {s : FullStream K Server}
    (h : Hop L start up down C S c s) : ∃ G, Connection L start ⟨c, s, up, down⟩ G C S := by
  obtain ⟨as, G, h1, rfl, rfl⟩ := h
  obtain ⟨c1, c2⟩ := StreamNet.clientPart_spec G
  obtain ⟨s1, s2⟩ := StreamNet.serverPart_spec G
  exact ⟨G, ⟨as, h1⟩, ⟨c1.symm, fun i => (c2 i).symm⟩, s1.symm, fun i => (s2 i).symm⟩

/-- Both connections of a run through the proxy. -/
theorem Relay.connections (hL : L.Lawful) (hP : L.Proxyable) (hop : proxyServerOptions L = .ok op)
    (h : (Relay.new tc tpc tps ts gc oc gpc gs os gr).run L gps as = some (r, R)) :
    ∃ g c s G1 G2, (∃ pas, (Proxy.start tpc tps gpc).run L gps pas = some (r.proxy, relayProxy R)) ∧
      Connection L (StreamNet.new tc tpc gc oc gps op g) ⟨r.client, s, r.clientToProxy, r.proxyToClient⟩ G1 (relayClient R)
        (clientFull (relayProxy R)) ∧
      Connection L (StreamNet.new tps ts gpc .default gs os gr) ⟨c, r.server, r.proxyToServer, r.serverToProxy⟩ G2
        (serverFull (relayProxy R)) (relayServer R) ∧
      (∀ s', r.proxy.toServer? = some s' → c = s') ∧ (∀ c', r.proxy.toClient? = some c' → s = c') ∧
      (g = gr.restrict ∨ ∃ g', g = g'.restrict ∧ .greetingReceived g' ∈ streamEvents (serverSide (relayProxy R))) := by
  have hh := Relay.Hops.run hL hP Relay.Hops.start h
  rw [List.nil_append] at hh
  obtain ⟨c, h2, h2'⟩ := hh.second
  obtain ⟨G2, hG2⟩ := h2.connection
  rcases hh.first with ⟨f1, f2, -, f4⟩ | ⟨o, g, f1, f2, -, s, f4, f5⟩
  · obtain ⟨G1, hG1⟩ := (f4 op gr.restrict).connection
    refine ⟨_, c, _, G1, G2, hh.proxy, f1 ▸ hG1, hG2, h2', ?_, .inl rfl⟩
    intro c' hc
    rw [f2] at hc; cases hc
  · rw [hop] at f1
    cases f1
    obtain ⟨G1, hG1⟩ := f4.connection
    exact ⟨_, c, s, G1, G2, hh.proxy, hG1, hG2, h2', f5, .inr ⟨g, rfl, f2⟩⟩

theorem clientTls_refused {T : List ProxyItem} (h : .refused ∈ clientFull T) : .clientTls .refused ∈ T := by
  obtain ⟨x, hx, he⟩ := List.mem_filterMap.1 h
  rcases x with i | i | (_ | _ | _) | (_ | _ | _) | _ <;> first | exact hx | (simp [ProxyItem.clientFull?] at he)

theorem serverTls_refused {T : List ProxyItem} (h : .refused ∈ serverFull T) : .serverTls .refused ∈ T := by
  obtain ⟨x, hx, he⟩ := List.mem_filterMap.1 h
  rcases x with i | i | (_ | _ | _) | (_ | _ | _) | _ <;> first | exact hx | (simp [ProxyItem.serverFull?] at he)

theorem mem_relayClient {i : FullItem ClientError ClientEvent ClientOp} : i ∈ relayClient R ↔ .client i ∈ R := by
  unfold relayClient
  rw [List.mem_filterMap]
  constructor
  · rintro ⟨x, hx, he⟩
    cases x <;> cases he
    exact hx
  · exact fun h => ⟨_, h, rfl⟩

theorem mem_relayProxy {i : ProxyItem} : i ∈ relayProxy R ↔ .proxy i ∈ R := by
  unfold relayProxy
  rw [List.mem_filterMap]
  constructor
  · rintro ⟨x, hx, he⟩
    cases x <;> cases he
    exact hx
  · exact fun h => ⟨_, h, rfl⟩

theorem mem_relayServer {i : FullItem ServerError ServerEvent ServerOp} : i ∈ relayServer R ↔ .server i ∈ R := by
  unfold relayServer
  rw [List.mem_filterMap]
  constructor
  · rintro ⟨x, hx, he⟩
    cases x <;> cases he
    exact hx
  · exact fun h => ⟨_, h, rfl⟩

theorem acceptReply_restrict {r : Response} {mode : LiteralMode} (h : ServerMessage.response none r ∈ acceptReply L os mode) :
    r.restrict = r := by
  unfold acceptReply at h
  repeat' split at h
  all_goals try (cases h; done)
  rename_i text _ _ cont hc
  cases List.mem_singleton.1 h
  unfold Lib.ccrBasicFromText at hc
  split at hc
  · cases hc; rfl
  · cases hc

/-- What the proxy tells the client about a report of the server. -/
theorem Response.report_answer (r : Response) : r.report.answer = some r.restrict.enqueue ∧
    r.report.forwarded = some r.restrict := by
  cases r <;> exact ⟨rfl, rfl⟩

theorem Response.enqueue_response (r : Response) : r.enqueue.response? = some r := by
  cases r <;> rfl

/-- The users of both connections of a run through the proxy. -/
structure Relay.Used (L : Lib) (paired : K → K → Prop) (tc tpc tps ts : Option (Tls K)) (gc gpc gps gs : HandleGenerator)
    (oc : ClientOptions) (op os : ServerOptions) (gr : Greeting) (r : Relay K) (R : List RelayItem) (c : FullStream K Client)
    (s : FullStream K Server) (G1 G2 : List StreamNetItem) : Prop where
  first : Connection L (StreamNet.new tc tpc gc oc gps op gr.restrict) ⟨r.client, s, r.clientToProxy, r.proxyToClient⟩ G1
    (relayClient R) (clientFull (relayProxy R))
  second : Connection L (StreamNet.new tps ts gpc .default gs os gr) ⟨c, r.server, r.proxyToServer, r.serverToProxy⟩ G2
    (serverFull (relayProxy R)) (relayServer R)
  streams : (∀ s', r.proxy.toServer? = some s' → c = s') ∧ (∀ c', r.proxy.toClient? = some c' → s = c')
  refused : (.client .refused ∉ G1 ∧ .server .refused ∉ G1) ∧ (.client .refused ∉ G2 ∧ .server .refused ∉ G2)
  good : GoodUse L oc op gr.restrict G1 ∧ GoodUse L .default os gr G2
  alive : r.proxy ≠ .dead
  commands : (atClient G2).filterMap StreamItem.enqueued? = (events (atServer G1)).filterMap ServerEvent.received?
  told : (atServer G1).filterMap StreamItem.told? = ((events (atClient G2)).filterMap ClientEvent.told?).map Response.restrict
  passed : ∀ x ∈ (atServer G1).filterMap StreamItem.response?, ∃ y, x = y.restrict ∧
    (y ∈ relayedResponses R ∨ ∃ mode, ServerMessage.response none y ∈ acceptReply L os mode)

theorem Relay.used (hL : L.Lawful) (hP : L.Proxyable) (hop : proxyServerOptions L = .ok op) (hO : ServerOptions.Built L os)
    (hmax : 0 < os.maxCommandSize) (hh1 : Handshaken paired tc tpc) (hh2 : Handshaken paired tps ts)
    (h : (Relay.new tc tpc tps ts gc oc gpc gs os gr).run L gps as = some (r, R)) (hr : RelayAccepted R)
    (hg : GoodRelay L oc op os gr R) :
    ∃ c s G1 G2, Relay.Used L paired tc tpc tps ts gc gpc gps gs oc op os gr r R c s G1 G2 := by
  have hb := proxyServerOptions_built hL hP hop
  have hpm := proxyServerOptions_max hop
  obtain ⟨g, c, s, G1, G2, ⟨pas, hp⟩, c1, c2, k1, k2, k3⟩ := Relay.connections hL hP hop h
  have hr1 : .client .refused ∉ G1 ∧ .server .refused ∉ G1 :=
    ⟨fun hx => hr.1 (mem_relayClient.1 ((c1.client.2 _).1 hx)),
      fun hx => hr.2.2.1 (mem_relayProxy.1 (clientTls_refused ((c1.server.2 _).1 hx)))⟩
  have hr2 : .client .refused ∉ G2 ∧ .server .refused ∉ G2 :=
    ⟨fun hx => hr.2.2.2 (mem_relayProxy.1 (serverTls_refused ((c2.client.2 _).1 hx))),
      fun hx => hr.2.1 (mem_relayServer.1 ((c2.server.2 _).1 hx))⟩
  obtain ⟨as1, run1⟩ := c1.run
  obtain ⟨as2, run2⟩ := c2.run
  have ev1 : events (atServer G1) = streamEvents (clientSide (relayProxy R)) := by
    rw [c1.server.1, streamPart_clientFull, events_eq]
  have ev2 : events (atClient G2) = streamEvents (serverSide (relayProxy R)) := by
    rw [c2.client.1, streamPart_serverFull, events_eq]
  -- commands of the first connection
  have gs1 : GoodSending L op G1 := by
    refine ⟨?_, ?_, ?_, ?_⟩
    · rw [c1.client.1]; exact hg.regular
    · rw [c1.client.1]; exact fun x hx => (hg.roundTrip x hx).1
    · rw [c1.client.1]; exact fun x hx => (hg.fits x hx).1
    · intro hd x st
      rw [c1.client.1]; exact (hg.accepted hd x st).1
  have cm1 := C51_commands hL hb hpm hh1 run1 hr1 gs1
  have ne1 := fun e (he : e ∈ events (atServer G1)) => C51_nothing_else hL hb hpm hh1 run1 hr1 gs1 he
  have rc : receivedCommands (relayProxy R) = (events (atServer G1)).filterMap ServerEvent.received? := by
    unfold receivedCommands
    rw [← ev1]
    refine filterMap_congr' fun e he => ?_
    rcases ne1 e he with ⟨_, rfl⟩ | ⟨_, _, rfl⟩ | ⟨_, -, rfl⟩ <;> rfl
  have fc : (atClient G2).filterMap StreamItem.enqueued? = forwardedCommands (relayProxy R) := by
    rw [c2.client.1, streamPart_serverFull, forwardedCommands, streamCalls, List.filterMap_filterMap]
    refine filterMap_congr' fun i _ => ?_
    cases i with
    | user op => cases op <;> rfl
    | _ => rfl
  have hcm : (atClient G2).filterMap StreamItem.enqueued? = (events (atServer G1)).filterMap ServerEvent.received? := by
    rw [fc, C41_commands hL hP hp, rc]
  have sub : ∀ x ∈ (atClient G2).filterMap StreamItem.enqueued?, x ∈ relayedCommands R := by
    intro x hx
    rw [hcm] at hx
    have := cm1.subset hx
    rwa [c1.client.1] at this
  -- the second connection
  have gu2 : GoodUse L .default os gr G2 := by
    refine ⟨⟨fun x hx => hg.regular x (sub x hx), fun x hx => (hg.roundTrip x (sub x hx)).2,
      fun x hx => (hg.fits x (sub x hx)).2, ?_⟩, hg.greeting.1, ?_, fun mode m hm => ((hg.accepts mode).1 m hm).1⟩
    · intro hd x st
      rw [ev2]; exact (hg.accepted hd x st).2
    · intro x hx hd
      rw [c2.server.1] at hx
      exact (hg.responses x hx hd).1
  have rep := fun e (he : e ∈ events (atClient G2)) => C51_reports hL hO hmax hh2 run2 hr2 gu2 he
  have hgr : g = gr.restrict := by
    rcases k3 with k3 | ⟨g', rfl, k3⟩
    · exact k3
    · rw [← ev2] at k3
      rcases rep _ k3 with ⟨_, _, hx⟩ | hx | ⟨x, hx, -⟩
      · cases hx
      · cases hx; rfl
      · cases x <;> cases hx
  subst hgr
  -- the proxy does not panic
  have hal : r.proxy ≠ .dead := by
    intro hd
    rcases (C40_partial hL hP hp).1 hd with ⟨T1, T2, d, ht, -⟩ | ⟨T1, T2, hd, st, ht, -⟩
    · have : ServerEvent.authenticateDataReceived d ∈ events (atServer G1) := by
        rw [ev1, ht]
        simp [streamEvents, clientSide, ProxyItem.client?, StreamItem.event?]
      rcases ne1 _ this with ⟨_, hx⟩ | ⟨_, _, hx⟩ | ⟨_, -, hx⟩ <;> cases hx
    · have : ClientEvent.idleRejected hd st ∈ events (atClient G2) := by
        rw [ev2, ht]
        simp [streamEvents, serverSide, ProxyItem.server?, StreamItem.event?]
      rcases rep _ this with ⟨_, _, hx⟩ | hx | ⟨x, hx, -⟩
      · cases hx
      · cases hx
      · cases x <;> cases hx
  have hans := C42_calls hL hP hp hal
  -- responses of the first connection
  have calls1 : streamCalls (atServer G1) = (events (atClient G2)).filterMap ClientEvent.answer := by
    rw [c1.server.1, streamPart_clientFull, ev2]
    exact hans
  have resp1 : ∀ x ∈ (atServer G1).filterMap StreamItem.response?, ∃ y, x = y.restrict ∧
      (y ∈ relayedResponses R ∨ ∃ mode, ServerMessage.response none y ∈ acceptReply L os mode) := by
    intro x hx
    obtain ⟨i, hi, hix⟩ := List.mem_filterMap.1 hx
    obtain ⟨o, rfl, ho⟩ : ∃ o, i = .user o ∧ o.response? = some x := by
      cases i with
      | user o => exact ⟨o, rfl, by cases o <;> exact hix⟩
      | _ => cases hix
    have hm : o ∈ streamCalls (atServer G1) := List.mem_filterMap.2 ⟨_, hi, rfl⟩
    rw [calls1] at hm
    obtain ⟨e, he, hea⟩ := List.mem_filterMap.1 hm
    rcases rep e he with ⟨_, _, rfl⟩ | rfl | ⟨y, rfl, hy⟩
    · cases hea
    · cases hea
    · rw [(Response.report_answer y).1] at hea
      cases hea
      rw [Response.enqueue_response] at ho
      cases ho
      refine ⟨y, rfl, ?_⟩
      rwa [c2.server.1] at hy
  have gu1 : GoodUse L oc op gr.restrict G1 := by
    refine ⟨gs1, hg.greeting.2, ?_, fun mode m hm => (hg.accepts mode).2 m hm⟩
    intro x hx hd
    obtain ⟨y, rfl, hy | ⟨mode, hy⟩⟩ := resp1 x hx
    · exact (hg.responses y hy hd).2
    · rw [acceptReply_restrict hy]
      exact ((hg.accepts mode).1 _ hy).2
  refine ⟨c, s, G1, G2, c1, c2, ⟨k1, k2⟩, ⟨hr1, hr2⟩, ⟨gu1, gu2⟩, hal, hcm, ?_, resp1⟩
  have t1 : (atServer G1).filterMap StreamItem.told? = (streamCalls (atServer G1)).filterMap fun o =>
      (StreamItem.user o : StreamItem ServerError ServerEvent ServerOp).told? := by
    rw [streamCalls, List.filterMap_filterMap]
    refine filterMap_congr' fun i _ => ?_
    cases i <;> rfl
  rw [t1, calls1, List.filterMap_filterMap, List.map_filterMap]
  refine filterMap_congr' fun e he => ?_
  rcases rep e he with ⟨_, _, rfl⟩ | rfl | ⟨y, rfl, -⟩
  · rfl
  · rfl
  · rcases y with (_ | _) | (_ | _ | _) | (_ | _) <;> rfl

end ImapFlow
