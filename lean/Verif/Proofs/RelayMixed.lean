import Verif.Proofs.ProxyPanic
import Verif.Proofs.RelayUse
import Verif.Proofs.RelayRest
import Verif.Props.C73
import Verif.Spec.RelayReject

/-!
# Through the proxy: the users of both connections, if literals may be too long
-/

namespace ImapFlow

variable {K : Type} {paired : K → K → Prop} {L : Lib} {tc tpc tps ts : Option (Tls K)} {gc gpc gps gs : HandleGenerator}
  {oc : ClientOptions} {op os : ServerOptions} {gr : Greeting} {as : List RelayAct} {r : Relay K} {R : List RelayItem}

/-! ## The steps of the proxy -/

section
variable {σ ε ev ι : Type}

/-- A step does not both return an event and call the state for its owner. -/
theorem FullStream.Stepped.either {M : Machine σ ε ev ι} {c c' : FullStream K σ} {T : List (FullItem ε ev ι)}
    (h : FullStream.Stepped M c c' T) : streamEvents (streamPart T) = [] ∨ streamCalls (streamPart T) = [] := by
  cases h with
  | user => exact .inl rfl
  | userPanic => exact .inl rfl
  | callNext _ h2 => exact .inr (by simpa [streamPart, FullItem.stream?, streamCalls, StreamItem.call?] using h2.no_calls)
  | read _ _ h2 => exact .inr (by simpa [streamPart, FullItem.stream?, streamCalls, StreamItem.call?] using h2.no_calls)
  | written _ _ _ h2 => exact .inr (by simpa [streamPart, FullItem.stream?, streamCalls, StreamItem.call?] using h2.no_calls)
  | wrote _ _ _ h2 =>
    rw [streamPart_map]
    rcases h2 with ⟨-, rfl, -⟩ | ⟨-, -, rfl, -⟩ <;> exact .inr rfl
  | flush _ _ h2 =>
    rw [streamPart_map]
    rcases h2 with ⟨-, rfl, -⟩ | ⟨-, rfl, -⟩ <;> exact .inr rfl
  | ended _ h2 =>
    rcases h2 with ⟨-, rfl, rfl⟩ | ⟨-, rfl, rfl⟩ | ⟨-, rfl, rfl⟩ | ⟨-, rfl, rfl⟩ | ⟨-, rfl, rfl⟩ <;> exact .inr rfl
  | dropped => exact .inr rfl

theorem FullStream.dropFuture_events (c : FullStream K σ) :
    streamEvents (streamPart (c.dropFuture (ε := ε) (ev := ev) (ι := ι)).2) = [] := by
  unfold FullStream.dropFuture
  split <;> rfl

end

theorem Proxy.clientBranch_quiet (c : FullStream K Server) (s : FullStream K Client)
    (x : Except (StreamError ServerError) ServerEvent) :
    clientSide (Proxy.clientBranch L c s x).2 = [] ∧ streamEvents (serverSide (Proxy.clientBranch L c s x).2) = [] := by
  have hd := FullStream.dropFuture_events (ε := ClientError) (ev := ClientEvent) (ι := ClientOp) s
  have key : ∀ calls : List ClientOp, clientSide (calls.map fun op => ProxyItem.server (.user op)) = [] ∧
      streamEvents (serverSide (calls.map fun op => ProxyItem.server (.user op))) = [] := by
    intro calls
    induction calls with
    | nil => exact ⟨rfl, rfl⟩
    | cons o calls ih => exact ih
  unfold Proxy.clientBranch
  cases hf : (s.dropFuture (ε := ClientError) (ev := ClientEvent) (ι := ClientOp)) with
  | mk s' D =>
    rw [hf] at hd
    dsimp only
    split
    · simp only [clientSide_append, serverSide_append, streamEvents_append, clientSide_server, serverSide_server, hd]
      exact ⟨rfl, rfl⟩
    · rename_i st calls flow _
      obtain ⟨k1, k2⟩ := key calls
      cases flow <;>
        simp only [clientSide_append, serverSide_append, streamEvents_append, clientSide_server, serverSide_server, hd, k1,
          k2, List.append_nil, and_self]

theorem Proxy.serverBranch_quiet (c : FullStream K Server) (s : FullStream K Client)
    (x : Except (StreamError ClientError) ClientEvent) :
    streamEvents (clientSide (Proxy.serverBranch L c s x).2) = [] := by
  have hd := FullStream.dropFuture_events (ε := ServerError) (ev := ServerEvent) (ι := ServerOp) c
  have key : ∀ calls : List ServerOp, streamEvents (clientSide (calls.map fun op => ProxyItem.client (.user op))) = [] := by
    intro calls
    induction calls with
    | nil => rfl
    | cons o calls ih => exact ih
  unfold Proxy.serverBranch
  cases hf : (c.dropFuture (ε := ServerError) (ev := ServerEvent) (ι := ServerOp)) with
  | mk s' D =>
    rw [hf] at hd
    dsimp only
    split
    · simp only [clientSide_append, streamEvents_append, clientSide_client, hd]
      rfl
    · rename_i st calls flow _
      have k1 := key calls
      cases flow <;> simp only [clientSide_append, streamEvents_append, clientSide_client, hd, k1, List.append_nil]

/-- In a step in which the client sends something, the server sends nothing, and the proxy answers nothing. -/
theorem Proxy.step_either {p p' : Proxy K} {g : HandleGenerator} {a : ProxyAct} {T : List ProxyItem}
    (h : p.step L g a = some (p', T)) :
    streamEvents (clientSide T) = [] ∨ (streamEvents (serverSide T) = [] ∧ streamCalls (clientSide T) = []) := by
  unfold Proxy.step at h
  split at h
  · left
    split at h
    · cases h
    · split at h
      · cases h; rw [clientSide_server]; rfl
      · split at h
        · cases h; rw [clientSide_server]; rfl
        · split at h
          · cases h; rw [clientSide_server]; rfl
          · split at h
            · cases h; rw [clientSide_append, clientSide_server]; rfl
            · cases h; rw [clientSide_server]; rfl
  · split at h
    · cases h
    · rename_i hs
      have hq := (FullStream.step_cases hs).either
      split at h
      · cases h; rw [clientSide_client, serverSide_client]; exact hq.imp_right fun h => ⟨rfl, h⟩
      · split at h
        · cases h; rw [clientSide_client, serverSide_client]; exact hq.imp_right fun h => ⟨rfl, h⟩
        · split at h
          · cases h; rw [clientSide_client, serverSide_client]; exact hq.imp_right fun h => ⟨rfl, h⟩
          · rename_i c' I _ _ _ x _
            have hb := Proxy.clientBranch_quiet (L := L) c' (by assumption) x
            dsimp only at h
            cases h
            rw [clientSide_append, serverSide_append, clientSide_client, serverSide_client, hb.1, List.append_nil,
              List.nil_append, hb.2]
            exact hq.imp_right fun h => ⟨rfl, h⟩
  · left
    split at h
    · cases h
    · split at h
      · cases h; rw [clientSide_server]; rfl
      · split at h
        · cases h; rw [clientSide_server]; rfl
        · split at h
          · cases h; rw [clientSide_server]; rfl
          · dsimp only at h
            cases h
            rw [clientSide_append, clientSide_server, List.nil_append]
            exact Proxy.serverBranch_quiet ..
  · cases h

theorem Relay.step_either {r r' : Relay K} {g : HandleGenerator} {a : RelayAct} {I : List RelayItem}
    (h : r.step L g a = some (r', I)) : streamEvents (clientSide (relayProxy I)) = [] ∨
      (streamEvents (serverSide (relayProxy I)) = [] ∧ streamCalls (clientSide (relayProxy I)) = []) := by
  have key : ∀ T : List ProxyItem, relayProxy (T.map .proxy) = T := by
    intro T
    induction T with
    | nil => rfl
    | cons x T ih => exact congrArg (x :: ·) ih
  have k1 : ∀ T : List (FullItem ClientError ClientEvent ClientOp), relayProxy (T.map .client) = [] := by
    intro T
    induction T with
    | nil => rfl
    | cons x T ih => exact ih
  have k2 : ∀ T : List (FullItem ServerError ServerEvent ServerOp), relayProxy (T.map .server) = [] := by
    intro T
    induction T with
    | nil => rfl
    | cons x T ih => exact ih
  unfold Relay.step at h
  split at h
  all_goals try (cases h; done)
  · unfold Relay.clientStep at h
    split at h
    · cases h
    · cases h; rw [k1]; exact .inl rfl
  · unfold Relay.serverStep at h
    split at h
    · cases h
    · cases h; rw [k2]; exact .inl rfl
  · split at h
    · cases h
    · rename_i hs
      cases h
      rw [key]
      exact Proxy.step_either hs
  · split at h
    · cases h
    · rename_i hs
      cases h
      rw [key]
      exact Proxy.step_either hs

theorem Relay.run_split {r0 r2 : Relay K} {g : HandleGenerator} {as : List RelayAct} {a : RelayAct} {R : List RelayItem}
    (h : r0.run L g (as ++ [a]) = some (r2, R)) :
    ∃ r1 R1 I, r0.run L g as = some (r1, R1) ∧ r1.step L g a = some (r2, I) ∧ R = R1 ++ I := by
  induction as generalizing r0 R with
  | nil =>
    simp only [List.nil_append, Relay.run] at h
    split at h
    · cases h
    · rename_i hs
      cases h
      exact ⟨r0, [], _, rfl, hs, by simp⟩
  | cons b as ih =>
    simp only [List.cons_append, Relay.run] at h
    split at h
    · cases h
    · rename_i hs
      split at h
      · cases h
      · rename_i hr
        cases h
        obtain ⟨r1, R1, I, h1, h2, rfl⟩ := ih hr
        exact ⟨r1, _, I, by simp only [Relay.run, hs, h1], h2, (List.append_assoc ..).symm⟩

/-! ## Both connections -/

theorem received_verdicts (S : List (StreamItem ServerError ServerEvent ServerOp)) :
    (verdicts S).filterMap Except.toOption = (events S).filterMap ServerEvent.received? := by
  unfold verdicts events
  rw [List.filterMap_filterMap, List.filterMap_filterMap, List.filterMap_filterMap]
  refine filterMap_congr' fun i _ => ?_
  cases i with
  | returned x =>
    cases x with
    | error e => cases e <;> rfl
    | ok e => cases e <;> rfl
  | _ => rfl

theorem admitted_verdicts (cs : List Command) :
    (cs.map (Command.verdict L op)).filterMap Except.toOption = cs.filter (Command.accepted L op) := by
  induction cs with
  | nil => rfl
  | cons c cs ih =>
    rw [List.map_cons, List.filterMap_cons, List.filter_cons, ih]
    unfold Command.verdict
    cases hc : c.accepted L op <;> rfl

theorem MixedRelay.of_prefix {I : List RelayItem} (h : MixedRelay L oc op os gr (R ++ I)) : MixedRelay L oc op os gr R := by
  have hc : relayedCommands (R ++ I) = relayedCommands R ++ relayedCommands I := by
    unfold relayedCommands
    rw [relayClient_append, streamPart_append, List.filterMap_append]
  have hs : relayedResponses (R ++ I) = relayedResponses R ++ relayedResponses I := by
    unfold relayedResponses
    rw [relayServer_append, streamPart_append, List.filterMap_append]
  have m : ∀ c ∈ relayedCommands R, c ∈ relayedCommands (R ++ I) := fun c hx => by rw [hc]; exact List.mem_append_left _ hx
  have a : ∀ c ∈ admittedCommands L op R, c ∈ admittedCommands L op (R ++ I) := fun c hx =>
    List.mem_filter.2 ⟨m c (List.mem_filter.1 hx).1, (List.mem_filter.1 hx).2⟩
  have s : ∀ x ∈ relayedResponses R, x ∈ relayedResponses (R ++ I) := fun c hx => by rw [hs]; exact List.mem_append_left _ hx
  refine ⟨fun c hx => h.regular c (m c hx), ⟨fun c hx => h.roundTrip.1 c (m c hx), fun c hx => h.roundTrip.2 c (a c hx)⟩,
    ⟨fun c hx => h.size.1 c (m c hx), fun c hx => h.size.2 c (a c hx)⟩,
    ⟨fun c hx => h.sync.1 c (m c hx), fun c hx => h.sync.2 c (a c hx)⟩, ?_, fun q hx => h.continuation q (s _ hx), ?_,
    h.greeting, fun x hx => h.responses x (s x hx), h.accepts,
    fun mode => ⟨fun c hx => (h.rejects mode).1 c (a c hx), fun c hx => (h.rejects mode).2 c (m c hx)⟩,
    fun c hx => h.rejections c (a c hx)⟩
  · have := h.tags
    rw [hc, List.map_append] at this
    exact this.sublist (List.sublist_append_left ..)
  · intro S1 i S2 tag body hS
    refine h.bad S1 i (S2 ++ streamPart (relayServer I)) tag body ?_
    rw [relayServer_append, streamPart_append, hS]
    simp

/-- What the proxy sends to the client. -/
def Relay.Answers (L : Lib) (op : ServerOptions) (R : List RelayItem) : Prop :=
  ∀ x ∈ (clientSide (relayProxy R)).filterMap StreamItem.response?,
    (∃ y ∈ relayedResponses R, x = y.restrict) ∨ ∃ c ∈ admittedCommands L op R, x = c.rejection

/-- Tagged BADs are for commands that the proxy got. -/
def PoliteItems (S : List (StreamItem ServerError ServerEvent ServerOp)) : Prop :=
  ∀ S1 i S2 tag body, S = S1 ++ i :: S2 → i.response? = some (.status (.tagged tag body)) → body.kind = .bad →
    ∃ c ∈ (events S1).filterMap ServerEvent.received?, c.tag = tag

theorem Response.restrict_continuation {y : Response} {q : ContinuationRequest} (h : y.restrict = .continuationRequest q) :
    ∃ q, y = .continuationRequest q := by
  cases y with
  | continuationRequest q => exact ⟨q, rfl⟩
  | data d => cases d <;> cases h
  | status st => cases h

theorem Response.restrict_tagged {y : Response} {tag : Tag} {body : StatusBody}
    (h : y.restrict = .status (.tagged tag body)) : ∃ body', y = .status (.tagged tag body') ∧ body'.kind = body.kind := by
  cases y with
  | status st =>
    cases st with
    | tagged t b => cases h; exact ⟨b, rfl, rfl⟩
    | _ => cases h
  | data d => cases d <;> cases h
  | continuationRequest q => cases q <;> cases h

/-- The user of the client and the proxy, on the first connection. -/
theorem MixedRelay.first (h : MixedRelay L oc op os gr R) (h1 : Relay.Answers L op R)
    (h2 : PoliteItems (clientSide (relayProxy R))) :
    MixedUse L oc op gr.restrict (streamPart (relayClient R)) (clientSide (relayProxy R)) where
  regular := h.regular
  roundTrip := h.roundTrip.1
  size := h.size.1
  sync := h.sync.1
  tags := h.tags
  continuation := by
    intro q hq
    rcases h1 _ hq with ⟨y, hy, e⟩ | ⟨c, -, e⟩
    · obtain ⟨q', rfl⟩ := Response.restrict_continuation e.symm
      exact h.continuation q' hy
    · cases e
  bad := h2
  greeting := h.greeting.2
  responses := by
    intro x hx hd
    rcases h1 _ hx with ⟨y, hy, rfl⟩ | ⟨c, hc, rfl⟩
    · exact (h.responses y hy hd).2
    · exact h.rejections c hc hd
  accepts := fun mode => (h.accepts mode).2
  rejects := fun c hc mode => (h.rejects mode).2 c hc

/-- The proxy and the user of the server, on the second connection. -/
theorem MixedRelay.second (h : MixedRelay L oc op os gr R)
    (h1 : ((serverSide (relayProxy R)).filterMap StreamItem.enqueued?).Sublist (admittedCommands L op R)) :
    MixedUse L .default os gr (serverSide (relayProxy R)) (streamPart (relayServer R)) where
  regular := fun c hc => h.regular c (List.mem_filter.1 (h1.subset hc)).1
  roundTrip := fun c hc => h.roundTrip.2 c (h1.subset hc)
  size := fun c hc => h.size.2 c (h1.subset hc)
  sync := fun c hc => h.sync.2 c (h1.subset hc)
  tags := h.tags.sublist ((h1.trans List.filter_sublist).map _)
  continuation := h.continuation
  bad := h.bad
  greeting := h.greeting.1
  responses := fun x hx hd => (h.responses x hx hd).1
  accepts := fun mode => (h.accepts mode).1
  rejects := fun c hc mode => (h.rejects mode).1 c (h1.subset hc)

theorem enqueued_forwarded (T : List ProxyItem) :
    (serverSide T).filterMap StreamItem.enqueued? = forwardedCommands T := by
  rw [forwardedCommands, streamCalls, List.filterMap_filterMap]
  refine filterMap_congr' fun i _ => ?_
  cases i with
  | user op => cases op <;> rfl
  | _ => rfl

/-- The second connection. -/
theorem Relay.second_facts (hL : L.Lawful) (hP : L.Proxyable) (hop : proxyServerOptions L = .ok op)
    (hO : ServerOptions.Built L os) (hmax : 0 < os.maxCommandSize) (hh2 : Handshaken paired tps ts)
    (h : (Relay.new tc tpc tps ts gc oc gpc gs os gr).run L gps as = some (r, R)) (hr : RelayAccepted R)
    (hu : MixedUse L .default os gr (serverSide (relayProxy R)) (streamPart (relayServer R))) :
    (verdicts (streamPart (relayServer R)) <+:
      ((serverSide (relayProxy R)).filterMap StreamItem.enqueued?).map (Command.verdict L os)) ∧
    (∀ e ∈ streamEvents (serverSide (relayProxy R)), e = .greetingReceived gr ∨
      (∃ hd, ∃ c ∈ (serverSide (relayProxy R)).filterMap StreamItem.enqueued?, ReportedAs L os (hd, c) e) ∨
      ∃ x ∈ (streamPart (relayServer R)).filterMap StreamItem.told?, e.told? = some x) := by
  obtain ⟨g, c, s, G1, G2, -, -, c2, -⟩ := Relay.connections hL hP hop h
  obtain ⟨as2, run2⟩ := c2.run
  have hr2 : .client .refused ∉ G2 ∧ .server .refused ∉ G2 :=
    ⟨fun hx => hr.2.2.2 (mem_relayProxy.1 (serverTls_refused ((c2.client.2 _).1 hx))),
      fun hx => hr.2.1 (mem_relayServer.1 ((c2.server.2 _).1 hx))⟩
  have hC : atClient G2 = serverSide (relayProxy R) := by rw [c2.client.1, streamPart_serverFull]
  have hu' : MixedUse L .default os gr (atClient G2) (atServer G2) := by rwa [hC, c2.server.1]
  have k1 := C73_users_server hL hO hmax hh2 run2 hr2 hu'
  have k2 := (C73_users_events hL hO hmax hh2 run2 hr2 hu').1
  rw [hC, c2.server.1] at k1 k2
  rw [events_eq] at k2
  exact ⟨k1, k2⟩

/-- The first connection. -/
theorem Relay.first_facts (hL : L.Lawful) (hP : L.Proxyable) (hop : proxyServerOptions L = .ok op)
    (hh1 : Handshaken paired tc tpc)
    (h : (Relay.new tc tpc tps ts gc oc gpc gs os gr).run L gps as = some (r, R)) (hr : RelayAccepted R)
    (hg : ∀ g, .greetingReceived g ∈ streamEvents (serverSide (relayProxy R)) → g = gr)
    (hu : MixedUse L oc op gr.restrict (streamPart (relayClient R)) (clientSide (relayProxy R))) :
    (verdicts (clientSide (relayProxy R)) <+: (relayedCommands R).map (Command.verdict L op)) ∧
    ∀ e ∈ streamEvents (clientSide (relayProxy R)), (∃ g, e = .greetingSent g) ∨ (∃ hd r, e = .responseSent hd r) ∨
      ∃ c ∈ relayedCommands R, e = .commandReceived c := by
  obtain ⟨g, c, s, G1, G2, -, c1, -, -, -, k3⟩ := Relay.connections hL hP hop h
  have hgr : g = gr.restrict := by
    rcases k3 with k3 | ⟨g', rfl, k3⟩
    · exact k3
    · rw [hg g' k3]
  subst hgr
  obtain ⟨as1, run1⟩ := c1.run
  have hr1 : .client .refused ∉ G1 ∧ .server .refused ∉ G1 :=
    ⟨fun hx => hr.1 (mem_relayClient.1 ((c1.client.2 _).1 hx)),
      fun hx => hr.2.2.1 (mem_relayProxy.1 (clientTls_refused ((c1.server.2 _).1 hx)))⟩
  have hb := proxyServerOptions_built hL hP hop
  have hpm := proxyServerOptions_max hop
  have hS : atServer G1 = clientSide (relayProxy R) := by rw [c1.server.1, streamPart_clientFull]
  have hu' : MixedUse L oc op gr.restrict (atClient G1) (atServer G1) := by rwa [hS, c1.client.1]
  have k1 := C73_users_server hL hb hpm hh1 run1 hr1 hu'
  have k2 := fun e => C73_users_server_events hL hb hpm hh1 run1 hr1 hu' (e := e)
  rw [hS, c1.client.1] at k1 k2
  rw [events_eq] at k2
  exact ⟨k1, k2⟩

/-- What the proxy answers to what the server sends. -/
theorem ReportedAs.answer {hd : RawHandle} {c : Command} {e : ClientEvent} (h : ReportedAs L os (hd, c) e) :
    (c.accepted L os = true ∧ e.answer = none) ∨ (c.accepted L os = false ∧ e.answer = some c.rejection.enqueue) := by
  unfold ReportedAs at h
  cases hc : c.accepted L os with
  | true =>
    rw [if_pos hc] at h
    cases h
    exact .inl ⟨rfl, rfl⟩
  | false =>
    rw [if_neg (by rw [hc]; simp)] at h
    obtain ⟨text, -, rfl⟩ := h
    exact .inr ⟨rfl, rfl⟩

theorem ClientEvent.answer_told {e : ClientEvent} {x : Response} (h : e.told? = some x) :
    e.answer = some x.restrict.enqueue := by
  cases e <;> cases h
  · rfl
  · rfl

theorem StreamItem.response_call {i : StreamItem ServerError ServerEvent ServerOp} {x : Response} (h : i.response? = some x) :
    ∃ o, i = .user o ∧ o.response? = some x := by
  cases i with
  | user o => exact ⟨o, rfl, by cases o <;> exact h⟩
  | _ => cases h

theorem StreamItem.told_response {i : StreamItem ServerError ServerEvent ServerOp} {x : Response} (h : i.told? = some x) :
    i.response? = some x := by
  cases i with
  | user o => cases o <;> first | exact h | cases h
  | _ => cases h

theorem PoliteItems.append {S T : List (StreamItem ServerError ServerEvent ServerOp)} (h : PoliteItems S)
    (hT : ∀ T1 i T2 tag body, T = T1 ++ i :: T2 → i.response? = some (.status (.tagged tag body)) → body.kind = .bad →
      ∃ c ∈ (events S).filterMap ServerEvent.received?, c.tag = tag) : PoliteItems (S ++ T) := by
  intro S1 i S2 tag body hS hi hb
  rcases List.append_eq_append_iff.1 hS with ⟨a, rfl, h2⟩ | ⟨a, h1, h2⟩
  · obtain ⟨c, hc, hct⟩ := hT a i S2 tag body h2 hi hb
    refine ⟨c, ?_, hct⟩
    unfold events at hc ⊢
    rw [List.filterMap_append, List.filterMap_append]
    exact List.mem_append_left _ hc
  · cases a with
    | nil =>
      rw [List.append_nil] at h1
      subst h1
      exact hT [] i S2 tag body h2.symm hi hb
    | cons j a =>
      rw [List.cons_append, List.cons.injEq] at h2
      obtain ⟨rfl, -⟩ := h2
      exact h S1 i a tag body h1 hi hb

/-- The users of both connections. -/
theorem Relay.mixed_users (hL : L.Lawful) (hP : L.Proxyable) (hop : proxyServerOptions L = .ok op)
    (hO : ServerOptions.Built L os) (hmax : 0 < os.maxCommandSize) (hh1 : Handshaken paired tc tpc)
    (hh2 : Handshaken paired tps ts)
    (h : (Relay.new tc tpc tps ts gc oc gpc gs os gr).run L gps as = some (r, R)) (hr : RelayAccepted R)
    (hg : MixedRelay L oc op os gr R) :
    ((serverSide (relayProxy R)).filterMap StreamItem.enqueued?).Sublist (admittedCommands L op R) ∧
    Relay.Answers L op R ∧ PoliteItems (clientSide (relayProxy R)) := by
  induction as using snocInduction generalizing r R with
  | nil =>
    cases h
    exact ⟨List.nil_sublist _, fun x hx => (by cases hx), fun S1 i S2 tag body hS => (by simp [relayProxy, clientSide] at hS)⟩
  | snoc as a ih =>
    obtain ⟨r1, R1, I, h1, h2, rfl⟩ := Relay.run_split h
    have hr1 : RelayAccepted R1 :=
      ⟨fun hx => hr.1 (List.mem_append_left _ hx), fun hx => hr.2.1 (List.mem_append_left _ hx),
        fun hx => hr.2.2.1 (List.mem_append_left _ hx), fun hx => hr.2.2.2 (List.mem_append_left _ hx)⟩
    obtain ⟨i1, i2, i3⟩ := ih h1 hr1 hg.of_prefix
    obtain ⟨-, -, -, -, -, ⟨pas, hp⟩, -⟩ := Relay.connections hL hP hop h
    obtain ⟨-, -, -, -, -, ⟨pas1, hp1⟩, -⟩ := Relay.connections hL hP hop h1
    have m1 := hg.of_prefix.first i2 i3
    have m2 := hg.of_prefix.second i1
    obtain ⟨-, e2⟩ := Relay.second_facts hL hP hop hO hmax hh2 h1 hr1 m2
    have hgr1 : ∀ g, .greetingReceived g ∈ streamEvents (serverSide (relayProxy R1)) → g = gr := by
      intro g hg'
      rcases e2 _ hg' with hx | ⟨hd, c, -, hx⟩ | ⟨x, -, hx⟩
      · cases hx; rfl
      · rcases ReportedAs.answer hx with ⟨hc, -⟩ | ⟨-, hx⟩
        · unfold ReportedAs at hx
          rw [if_pos hc] at hx
          cases hx
        · cases hx
      · cases hx
    obtain ⟨-, e1⟩ := Relay.first_facts hL hP hop hh1 h1 hr1 hgr1 m1
    have f1 : (serverSide (relayProxy R1)).filterMap StreamItem.enqueued? = receivedCommands (relayProxy R1) := by
      rw [enqueued_forwarded, C41_commands hL hP hp1]
    have f : (serverSide (relayProxy (R1 ++ I))).filterMap StreamItem.enqueued? = receivedCommands (relayProxy (R1 ++ I)) := by
      rw [enqueued_forwarded, C41_commands hL hP hp]
    have hC : relayedCommands (R1 ++ I) = relayedCommands R1 ++ relayedCommands I := by
      unfold relayedCommands
      rw [relayClient_append, streamPart_append, List.filterMap_append]
    have hV : clientSide (relayProxy (R1 ++ I)) = clientSide (relayProxy R1) ++ clientSide (relayProxy I) := by
      rw [relayProxy_append, clientSide_append]
    have hU : serverSide (relayProxy (R1 ++ I)) = serverSide (relayProxy R1) ++ serverSide (relayProxy I) := by
      rw [relayProxy_append, serverSide_append]
    have hadm : (admittedCommands L op R1).Sublist (admittedCommands L op (R1 ++ I)) := by
      unfold admittedCommands
      rw [hC]
      exact (List.sublist_append_left ..).filter _
    have recv1 : ∀ c ∈ receivedCommands (relayProxy R1),
        c ∈ (events (clientSide (relayProxy R1))).filterMap ServerEvent.received? := by
      intro c hc
      rw [events_eq]
      obtain ⟨e, he, hec⟩ := List.mem_filterMap.1 hc
      refine List.mem_filterMap.2 ⟨e, he, ?_⟩
      rcases e1 e he with ⟨g, rfl⟩ | ⟨hd, x, rfl⟩ | ⟨c', -, rfl⟩
      · cases hec
      · cases hec
      · exact hec
    rcases Relay.step_either h2 with hq | ⟨hq1, hq2⟩
    · -- nothing comes from the client
      have hrc : receivedCommands (relayProxy (R1 ++ I)) = receivedCommands (relayProxy R1) := by
        unfold receivedCommands
        rw [hV, streamEvents_append, hq, List.append_nil]
      have j1 : ((serverSide (relayProxy (R1 ++ I))).filterMap StreamItem.enqueued?).Sublist
          (admittedCommands L op (R1 ++ I)) := by
        rw [f, hrc, ← f1]
        exact i1.trans hadm
      obtain ⟨v2, w2⟩ := Relay.second_facts hL hP hop hO hmax hh2 h hr (hg.second j1)
      have hal : r.proxy ≠ .dead := by
        intro hd
        rcases (C40_partial hL hP hp).1 hd with ⟨T1, T2, d, ht, -⟩ | ⟨T1, T2, hd, st, ht, -⟩
        · have hx : ServerEvent.authenticateDataReceived d ∈ streamEvents (clientSide (relayProxy (R1 ++ I))) := by
            rw [ht]
            simp [streamEvents, clientSide, ProxyItem.client?, StreamItem.event?]
          rw [hV, streamEvents_append, hq, List.append_nil] at hx
          rcases e1 _ hx with ⟨_, hx⟩ | ⟨_, _, hx⟩ | ⟨_, -, hx⟩ <;> cases hx
        · have hx : ClientEvent.idleRejected hd st ∈ streamEvents (serverSide (relayProxy (R1 ++ I))) := by
            rw [ht]
            simp [streamEvents, serverSide, ProxyItem.server?, StreamItem.event?]
          rcases w2 _ hx with hx | ⟨hd, c, -, hx⟩ | ⟨x, -, hx⟩
          · cases hx
          · rcases ReportedAs.answer hx with ⟨-, hx⟩ | ⟨-, hx⟩ <;> cases hx
          · cases hx
      have hans : streamCalls (clientSide (relayProxy (R1 ++ I))) =
          (streamEvents (serverSide (relayProxy (R1 ++ I)))).filterMap ClientEvent.answer := C42_calls hL hP hp hal
      -- where a response of the proxy comes from
      have src : ∀ o ∈ streamCalls (clientSide (relayProxy (R1 ++ I))), ∀ x, o.response? = some x →
          (∃ y ∈ (streamPart (relayServer (R1 ++ I))).filterMap StreamItem.told?, x = y.restrict) ∨
          ∃ c ∈ (serverSide (relayProxy (R1 ++ I))).filterMap StreamItem.enqueued?, x = c.rejection := by
        intro o ho x hx
        rw [hans] at ho
        obtain ⟨e, he, hea⟩ := List.mem_filterMap.1 ho
        rcases w2 e he with rfl | ⟨hd, c, hc, hrep⟩ | ⟨y, hy, hey⟩
        · cases hea
        · rcases ReportedAs.answer hrep with ⟨-, ha⟩ | ⟨-, ha⟩
          · rw [ha] at hea; cases hea
          · rw [ha] at hea
            cases hea
            rw [Response.enqueue_response] at hx
            cases hx
            exact .inr ⟨c, hc, rfl⟩
        · rw [ClientEvent.answer_told hey] at hea
          cases hea
          rw [Response.enqueue_response] at hx
          cases hx
          exact .inl ⟨y, hy, rfl⟩
      refine ⟨j1, ?_, ?_⟩
      · intro x hx
        obtain ⟨i, hi, hix⟩ := List.mem_filterMap.1 hx
        obtain ⟨o, rfl, ho⟩ := StreamItem.response_call hix
        rcases src o (List.mem_filterMap.2 ⟨_, hi, rfl⟩) x ho with ⟨y, hy, rfl⟩ | ⟨c, hc, rfl⟩
        · obtain ⟨j, hj, hjy⟩ := List.mem_filterMap.1 hy
          exact .inl ⟨y, List.mem_filterMap.2 ⟨j, hj, StreamItem.told_response hjy⟩, rfl⟩
        · exact .inr ⟨c, j1.subset hc, rfl⟩
      · rw [hV]
        refine i3.append ?_
        intro T1 i T2 tag body hT hi hb
        obtain ⟨o, rfl, ho⟩ := StreamItem.response_call hi
        have hm : o ∈ streamCalls (clientSide (relayProxy (R1 ++ I))) := by
          refine List.mem_filterMap.2 ⟨.user o, ?_, rfl⟩
          rw [hV, hT]
          simp
        have key : ∃ c ∈ (serverSide (relayProxy (R1 ++ I))).filterMap StreamItem.enqueued?, c.tag = tag := by
          rcases src o hm _ ho with ⟨y, hy, e⟩ | ⟨c, hc, e⟩
          · obtain ⟨body', rfl, hk⟩ := Response.restrict_tagged e.symm
            obtain ⟨j, hj, hjy⟩ := List.mem_filterMap.1 hy
            obtain ⟨S1, S2, hS⟩ := List.append_of_mem hj
            obtain ⟨c, hc, hct⟩ := hg.bad S1 j S2 tag body' hS (StreamItem.told_response hjy) (hk.trans hb)
            refine ⟨c, ?_, hct⟩
            have hv := v2.filterMap Except.toOption
            rw [received_verdicts, admitted_verdicts] at hv
            refine (List.mem_filter.1 (hv.subset ?_)).1
            rw [hS]
            unfold events at hc ⊢
            rw [List.filterMap_append, List.filterMap_append]
            exact List.mem_append_left _ hc
          · cases e
            exact ⟨c, hc, rfl⟩
        obtain ⟨c, hc, hct⟩ := key
        rw [f, hrc] at hc
        exact ⟨c, recv1 c hc, hct⟩
    · -- nothing comes from the server
      have none1 : ∀ i ∈ clientSide (relayProxy I), i.response? = none := by
        intro i hi
        cases hx : i.response? with
        | none => rfl
        | some x =>
          obtain ⟨o, rfl, -⟩ := StreamItem.response_call hx
          have : o ∈ streamCalls (clientSide (relayProxy I)) := List.mem_filterMap.2 ⟨_, hi, rfl⟩
          rw [hq2] at this
          cases this
      have j2 : Relay.Answers L op (R1 ++ I) := by
        intro x hx
        rw [hV, List.filterMap_append, List.filterMap_eq_nil_iff.2 none1, List.append_nil] at hx
        rcases i2 x hx with ⟨y, hy, rfl⟩ | ⟨c, hc, rfl⟩
        · refine .inl ⟨y, ?_, rfl⟩
          unfold relayedResponses at hy ⊢
          rw [relayServer_append, streamPart_append, List.filterMap_append]
          exact List.mem_append_left _ hy
        · exact .inr ⟨c, hadm.subset hc, rfl⟩
      have j3 : PoliteItems (clientSide (relayProxy (R1 ++ I))) := by
        rw [hV]
        refine i3.append ?_
        intro T1 i T2 tag body hT hi hb
        rw [none1 i (by rw [hT]; simp)] at hi
        cases hi
      have hgr : ∀ g, .greetingReceived g ∈ streamEvents (serverSide (relayProxy (R1 ++ I))) → g = gr := by
        intro g hx
        rw [hU, streamEvents_append, hq1, List.append_nil] at hx
        exact hgr1 g hx
      obtain ⟨v1, w1⟩ := Relay.first_facts hL hP hop hh1 h hr hgr (hg.first j2 j3)
      refine ⟨?_, j2, j3⟩
      have hv := v1.filterMap Except.toOption
      rw [received_verdicts, admitted_verdicts] at hv
      have : receivedCommands (relayProxy (R1 ++ I)) =
          (events (clientSide (relayProxy (R1 ++ I)))).filterMap ServerEvent.received? := by
        unfold receivedCommands
        rw [events_eq]
        refine filterMap_congr' fun e he => ?_
        rcases w1 e he with ⟨_, rfl⟩ | ⟨_, _, rfl⟩ | ⟨_, -, rfl⟩ <;> rfl
      rw [f, this]
      exact hv.sublist

/-- Both connections of a run through the proxy. -/
structure Relay.Mixed (L : Lib) (tc tpc tps ts : Option (Tls K)) (gc gpc gps gs : HandleGenerator)
    (oc : ClientOptions) (op os : ServerOptions) (gr : Greeting) (r : Relay K) (R : List RelayItem) (c : FullStream K Client)
    (s : FullStream K Server) (G1 G2 : List StreamNetItem) : Prop where
  first : ∃ as, (StreamNet.new tc tpc gc oc gps op gr.restrict).run L as =
    some (⟨r.client, s, r.clientToProxy, r.proxyToClient⟩, G1)
  second : ∃ as, (StreamNet.new tps ts gpc .default gs os gr).run L as =
    some (⟨c, r.server, r.proxyToServer, r.serverToProxy⟩, G2)
  clients : (∀ i, .client i ∈ G1 ↔ .client i ∈ R) ∧ ∀ i, .client i ∈ G2 ↔ i ∈ serverFull (relayProxy R)
  servers : (∀ i, .server i ∈ G1 ↔ i ∈ clientFull (relayProxy R)) ∧ ∀ i, .server i ∈ G2 ↔ .server i ∈ R
  streams : (∀ s', r.proxy.toServer? = some s' → c = s') ∧ (∀ c', r.proxy.toClient? = some c' → s = c')
  refused : (.client .refused ∉ G1 ∧ .server .refused ∉ G1) ∧ (.client .refused ∉ G2 ∧ .server .refused ∉ G2)
  client : atClient G1 = streamPart (relayClient R)
  server : atServer G2 = streamPart (relayServer R)
  proxied : atClient G2 = serverSide (relayProxy R)
  users : MixedUse L oc op gr.restrict (atClient G1) (atServer G1) ∧ MixedUse L .default os gr (atClient G2) (atServer G2)
  alive : r.proxy ≠ .dead
  commands : (atClient G2).filterMap StreamItem.enqueued? = (events (atServer G1)).filterMap ServerEvent.received?
  admitted : (atClient G2).filterMap StreamItem.enqueued? <+: admittedCommands L op R
  told : (atServer G1).filterMap StreamItem.told? =
    (((events (atClient G2)).filterMap ClientEvent.answer).filterMap fun o =>
      (StreamItem.user o : StreamItem ServerError ServerEvent ServerOp).told?)

theorem Relay.mixed (hL : L.Lawful) (hP : L.Proxyable) (hop : proxyServerOptions L = .ok op)
    (hO : ServerOptions.Built L os) (hmax : 0 < os.maxCommandSize) (hh1 : Handshaken paired tc tpc)
    (hh2 : Handshaken paired tps ts)
    (h : (Relay.new tc tpc tps ts gc oc gpc gs os gr).run L gps as = some (r, R)) (hr : RelayAccepted R)
    (hg : MixedRelay L oc op os gr R) :
    ∃ c s G1 G2, Relay.Mixed L tc tpc tps ts gc gpc gps gs oc op os gr r R c s G1 G2 := by
  obtain ⟨j1, j2, j3⟩ := Relay.mixed_users hL hP hop hO hmax hh1 hh2 h hr hg
  have m1 := hg.first j2 j3
  have m2 := hg.second j1
  obtain ⟨-, w2⟩ := Relay.second_facts hL hP hop hO hmax hh2 h hr m2
  have hgr : ∀ g, .greetingReceived g ∈ streamEvents (serverSide (relayProxy R)) → g = gr := by
    intro g hg'
    rcases w2 _ hg' with hx | ⟨hd, c, -, hx⟩ | ⟨x, -, hx⟩
    · cases hx; rfl
    · rcases ReportedAs.answer hx with ⟨hc, -⟩ | ⟨-, hx⟩
      · unfold ReportedAs at hx
        rw [if_pos hc] at hx
        cases hx
      · cases hx
    · cases hx
  obtain ⟨v1, w1⟩ := Relay.first_facts hL hP hop hh1 h hr hgr m1
  obtain ⟨g, c, s, G1, G2, ⟨pas, hp⟩, c1, c2, k1, k2, k3⟩ := Relay.connections hL hP hop h
  obtain rfl : g = gr.restrict := by
    rcases k3 with k3 | ⟨g', rfl, k3⟩
    · exact k3
    · rw [hgr g' k3]
  have hS : atServer G1 = clientSide (relayProxy R) := by rw [c1.server.1, streamPart_clientFull]
  have hC : atClient G2 = serverSide (relayProxy R) := by rw [c2.client.1, streamPart_serverFull]
  have hal : r.proxy ≠ .dead := by
    intro hd
    rcases (C40_partial hL hP hp).1 hd with ⟨T1, T2, d, ht, -⟩ | ⟨T1, T2, hd, st, ht, -⟩
    · have hx : ServerEvent.authenticateDataReceived d ∈ streamEvents (clientSide (relayProxy R)) := by
        rw [ht]
        simp [streamEvents, clientSide, ProxyItem.client?, StreamItem.event?]
      rcases w1 _ hx with ⟨_, hx⟩ | ⟨_, _, hx⟩ | ⟨_, -, hx⟩ <;> cases hx
    · have hx : ClientEvent.idleRejected hd st ∈ streamEvents (serverSide (relayProxy R)) := by
        rw [ht]
        simp [streamEvents, serverSide, ProxyItem.server?, StreamItem.event?]
      rcases w2 _ hx with hx | ⟨hd, c, -, hx⟩ | ⟨x, -, hx⟩
      · cases hx
      · rcases ReportedAs.answer hx with ⟨-, hx⟩ | ⟨-, hx⟩ <;> cases hx
      · cases hx
  have hrc : receivedCommands (relayProxy R) = (events (clientSide (relayProxy R))).filterMap ServerEvent.received? := by
    unfold receivedCommands
    rw [events_eq]
    refine filterMap_congr' fun e he => ?_
    rcases w1 e he with ⟨_, rfl⟩ | ⟨_, _, rfl⟩ | ⟨_, -, rfl⟩ <;> rfl
  have hcm : (serverSide (relayProxy R)).filterMap StreamItem.enqueued? =
      (events (clientSide (relayProxy R))).filterMap ServerEvent.received? := by
    rw [enqueued_forwarded, C41_commands hL hP hp, hrc]
  refine ⟨c, s, G1, G2, c1.run, c2.run, ⟨fun i => (c1.client.2 i).trans mem_relayClient, c2.client.2⟩,
    ⟨c1.server.2, fun i => (c2.server.2 i).trans mem_relayServer⟩, ⟨k1, k2⟩, ⟨⟨?_, ?_⟩, ?_, ?_⟩, c1.client.1, c2.server.1, hC,
    ⟨by rwa [c1.client.1, hS], by rwa [hC, c2.server.1]⟩, hal, by rw [hC, hS, hcm], ?_, ?_⟩
  · exact fun hx => hr.1 (mem_relayClient.1 ((c1.client.2 _).1 hx))
  · exact fun hx => hr.2.2.1 (mem_relayProxy.1 (clientTls_refused ((c1.server.2 _).1 hx)))
  · exact fun hx => hr.2.2.2 (mem_relayProxy.1 (serverTls_refused ((c2.client.2 _).1 hx)))
  · exact fun hx => hr.2.1 (mem_relayServer.1 ((c2.server.2 _).1 hx))
  · have hv := v1.filterMap Except.toOption
    rw [received_verdicts, admitted_verdicts] at hv
    rw [hC, hcm]
    exact hv
  · have t1 : (atServer G1).filterMap StreamItem.told? = (streamCalls (atServer G1)).filterMap fun o =>
        (StreamItem.user o : StreamItem ServerError ServerEvent ServerOp).told? := by
      rw [streamCalls, List.filterMap_filterMap]
      refine filterMap_congr' fun i _ => ?_
      cases i <;> rfl
    have hans : streamCalls (clientSide (relayProxy R)) =
        (streamEvents (serverSide (relayProxy R))).filterMap ClientEvent.answer := C42_calls hL hP hp hal
    rw [t1, hS, hans, hC, events_eq]

/-- What an event of the server makes the proxy tell the client. -/
def ClientEvent.relayed? : ClientEvent → Option (Response ⊕ Command)
  | .commandRejected _ c _ => some (.inr c)
  | e => e.told?.map .inl

/-- A command that was rejected. -/
def ClientEvent.rejected? : ClientEvent → Option Command
  | .commandRejected _ c _ => some c
  | _ => none

theorem relayed_responses (E : List ClientEvent) :
    (E.filterMap ClientEvent.relayed?).filterMap ofResponse? = E.filterMap ClientEvent.told? := by
  rw [List.filterMap_filterMap]
  refine filterMap_congr' fun e _ => ?_
  cases e <;> rfl

theorem relayed_commands (E : List ClientEvent) :
    (E.filterMap ClientEvent.relayed?).filterMap ofCommand? = E.filterMap ClientEvent.rejected? := by
  rw [List.filterMap_filterMap]
  refine filterMap_congr' fun e _ => ?_
  cases e <;> rfl

theorem rejected_terminals (E : List ClientEvent) :
    E.filterMap ClientEvent.rejected? = (E.filter ClientEvent.isTerminal).filterMap ClientEvent.rejected? := by
  rw [List.filterMap_filter]
  refine filterMap_congr' fun e _ => ?_
  cases e <;> rfl

/-- The commands that are reported as rejected. -/
theorem rejected_prefix {F : List ClientEvent} {cs : List Command}
    (h : ∀ (k : Nat) e, F[k]? = some e → ∃ hd c, cs[k]? = some c ∧ ReportedAs L os (hd, c) e) :
    F.filterMap ClientEvent.rejected? = (cs.take F.length).filter fun c => !c.accepted L os := by
  induction F generalizing cs with
  | nil => simp
  | cons e F ih =>
    obtain ⟨hd, c, h1, h2⟩ := h 0 e rfl
    cases cs with
    | nil => cases h1
    | cons c' cs =>
      cases h1
      have ih := ih (cs := cs) fun k e he => h (k + 1) e he
      rw [List.length_cons, List.take_succ_cons, List.filterMap_cons, List.filter_cons, ih]
      unfold ReportedAs at h2
      cases hc : c.accepted L os with
      | true =>
        rw [if_pos hc] at h2
        subst h2
        rfl
      | false =>
        rw [if_neg (by rw [hc]; simp)] at h2
        obtain ⟨text, -, rfl⟩ := h2
        rfl

/-- What the proxy tells the client. -/
theorem Relay.Mixed.relayed {c : FullStream K Client} {s : FullStream K Server} {G1 G2 : List StreamNetItem} (hL : L.Lawful)
    (hO : ServerOptions.Built L os) (hmax : 0 < os.maxCommandSize) (hh2 : Handshaken paired tps ts)
    (u : Relay.Mixed L tc tpc tps ts gc gpc gps gs oc op os gr r R c s G1 G2) :
    (atServer G1).filterMap StreamItem.told? =
      ((events (atClient G2)).filterMap ClientEvent.relayed?).map relayedReport := by
  obtain ⟨as2, run2⟩ := u.second
  have w2 := (C73_users_events hL hO hmax hh2 run2 u.refused.2 u.users.2).1
  rw [u.told, List.filterMap_filterMap, List.map_filterMap]
  refine filterMap_congr' fun e he => ?_
  rcases w2 e he with rfl | ⟨hd, c, -, hx⟩ | ⟨x, -, hx⟩
  · rfl
  · unfold ReportedAs at hx
    split at hx
    · cases hx; rfl
    · obtain ⟨text, -, rfl⟩ := hx
      rfl
  · rw [ClientEvent.answer_told hx]
    have : e.relayed? = some (.inl x) := by cases e <;> cases hx <;> rfl
    rw [this]
    cases e <;> cases hx
    · rename_i d; cases d <;> rfl
    · rfl

theorem takeWhile_all {α : Type} {p : α → Bool} {l : List α} (h : ∀ x ∈ l, p x = true) : l.takeWhile p = l := by
  induction l with
  | nil => rfl
  | cons x l ih =>
    rw [List.takeWhile_cons, h x (by simp), if_pos rfl, ih fun y hy => h y (by simp [hy])]

theorem MixedUse.fits {C : List (StreamItem ClientError ClientEvent ClientOp)}
    {S : List (StreamItem ServerError ServerEvent ServerOp)} (hu : MixedUse L oc os gr C S) {c : Command}
    (hc : c ∈ C.filterMap StreamItem.enqueued?) (ha : c.accepted L os = true) : c.Fits L os := by
  have ha' : ∀ f ∈ L.encodeCommand c, f.accepted os = true := by simpa [Command.accepted] using ha
  constructor
  · have := hu.size c hc
    rwa [Command.transmitted, takeWhile_all ha'] at this
  · exact fun d mode hd => by simpa [Fragment.accepted] using ha' _ hd

theorem MixedUse.no_errors {tc ts : Option (Tls K)} {as : List StreamNetAct} {sn : StreamNet K} {G : List StreamNetItem}
    (hL : L.Lawful) (hO : ServerOptions.Built L os) (hmax : 0 < os.maxCommandSize)
    (hh : Handshaken paired tc ts) (h : (StreamNet.new tc ts gc oc gs os gr).run L as = some (sn, G))
    (hr : .client .refused ∉ G ∧ .server .refused ∉ G) (hu : MixedUse L oc os gr (atClient G) (atServer G))
    (e : ClientError) : .poll (.error (.error e)) ∉ atClient G := by
  obtain ⟨n, T, hT⟩ := StreamNet.calls hL hO hh h hr
  obtain ⟨-, -, hrt⟩ := hu.net hL hO hmax hh h hr hT
  obtain ⟨-, h3, -⟩ := StreamNet.traced hL hO hh h hr hT
  exact h3.no_errors (C35_client_decodes_server hL hT hrt).2

end ImapFlow
