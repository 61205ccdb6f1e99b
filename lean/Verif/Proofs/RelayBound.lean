import Verif.Proofs.RelayHandlers
import Verif.Proofs.RelayJoined
import Verif.Proofs.RelayUse

/-!
# A run through the proxy, as runs of the two connections
-/

namespace ImapFlow

variable {K : Type} {paired : K → K → Prop} {L : Lib} {tc tpc tps ts : Option (Tls K)} {gc gpc gps gs : HandleGenerator}
  {oc : ClientOptions} {op os : ServerOptions} {gr : Greeting} {r r' : Relay K} {R I : List RelayItem}
  {T1 T2 T1' T2' : List NItem} {d d' : FullStream K Server} {u u' : FullStream K Client}

theorem Net.run_join {n n1 n2 : Net} {ops ops' : List NetOp} {T T' : List NItem} (h : n.run L ops = .ok (n1, T))
    (h' : n1.run L ops' = .ok (n2, T')) : n.run L (ops ++ ops') = .ok (n2, T ++ T') := by
  rw [Net.run_append, h]
  simp only [h', Except.map]

/-- While the stream waits for input, the client has asked for it. -/
def CParked (c : FullStream K Client) (U : List CItem) : Prop :=
  c.ctl = .at .reading → (∃ B, U = B ++ [.starved]) ∨ .output [] ∈ U

/-- While the stream waits for input, the server has asked for it. -/
def SParked (s : FullStream K Server) (V : List SItem) : Prop :=
  s.ctl = .at .reading → (∃ B, V = B ++ [.starved]) ∨ .output [] ∈ V

theorem CParked.append {c : FullStream K Client} {U : List CItem} (h : CParked c U) (U' : List CItem) : CParked c (U' ++ U) := by
  intro hc
  rcases h hc with ⟨B, rfl⟩ | h
  · exact .inl ⟨U' ++ B, by simp⟩
  · exact .inr (List.mem_append_right _ h)

theorem SParked.append {c : FullStream K Server} {U : List SItem} (h : SParked c U) (U' : List SItem) : SParked c (U' ++ U) := by
  intro hc
  rcases h hc with ⟨B, rfl⟩ | h
  · exact .inl ⟨U' ++ B, by simp⟩
  · exact .inr (List.mem_append_right _ h)

theorem ClientRecord.parked {c : FullStream K Client} {S : List (StreamItem ClientError ClientEvent ClientOp)} {U : List CItem}
    (h : ClientRecord S U) (ha : c.ctl = .at .reading → StreamNet.Asked S) : CParked c U := by
  intro hc
  obtain ⟨S0, io, rfl, ho⟩ := ha hc
  cases io with
  | needMoreInput => exact .inl (h.starved S0 rfl)
  | output b =>
    cases ho
    have hm : (.error (.io (.output [])) : Except (Interrupt ClientError) ClientEvent) ∈ U.filterMap CItem.result? := by
      rw [h.results]
      simp [StreamItem.poll?]
    obtain ⟨i, h1, h2⟩ := List.mem_filterMap.1 hm
    cases i <;> simp [CItem.result?, CItem.erase] at h2
    subst h2
    exact .inr h1

theorem ServerRecord.parked {c : FullStream K Server} {S : List (StreamItem ServerError ServerEvent ServerOp)} {U : List SItem}
    (h : ServerRecord S U) (ha : c.ctl = .at .reading → StreamNet.Asked S) : SParked c U := by
  intro hc
  obtain ⟨S0, io, rfl, ho⟩ := ha hc
  cases io with
  | needMoreInput => exact .inl (h.starved S0 rfl)
  | output b =>
    cases ho
    have hm : (.error (.io (.output [])) : Except (Interrupt ServerError) ServerEvent) ∈ U.filterMap SItem.result? := by
      rw [h.results]
      simp [StreamItem.poll?]
    obtain ⟨i, h1, h2⟩ := List.mem_filterMap.1 hm
    cases i <;> simp [SItem.result?, SItem.erase] at h2
    subst h2
    exact .inr h1

/-- The errors of the client were recorded. -/
def CPolled (I : List (StreamItem ClientError ClientEvent ClientOp)) (U : List CItem) : Prop :=
  ∀ e, .poll (.error (.error e)) ∈ I → .error (.error e) ∈ U.filterMap CItem.result?

/-- The errors of the server were recorded. -/
def SPolled (I : List (StreamItem ServerError ServerEvent ServerOp)) (V : List SItem) : Prop :=
  ∀ e, .poll (.error (.error e)) ∈ I → .error (.error e) ∈ V.filterMap SItem.result?

theorem CPolled.append {I I' : List (StreamItem ClientError ClientEvent ClientOp)} {U U' : List CItem} (h : CPolled I U)
    (h' : CPolled I' U') : CPolled (I ++ I') (U ++ U') := by
  intro e he
  rw [List.filterMap_append]
  rcases List.mem_append.1 he with he | he
  · exact List.mem_append_left _ (h e he)
  · exact List.mem_append_right _ (h' e he)

theorem SPolled.append {I I' : List (StreamItem ServerError ServerEvent ServerOp)} {V V' : List SItem} (h : SPolled I V)
    (h' : SPolled I' V') : SPolled (I ++ I') (V ++ V') := by
  intro e he
  rw [List.filterMap_append]
  rcases List.mem_append.1 he with he | he
  · exact List.mem_append_left _ (h e he)
  · exact List.mem_append_right _ (h' e he)

theorem ClientRecord.polled {I : List (StreamItem ClientError ClientEvent ClientOp)} {U : List CItem} (h : ClientRecord I U) :
    CPolled I U := by
  intro e he
  rw [h.results]
  exact List.mem_filterMap.2 ⟨_, he, rfl⟩

theorem ServerRecord.polled {I : List (StreamItem ServerError ServerEvent ServerOp)} {V : List SItem} (h : ServerRecord I V) :
    SPolled I V := by
  intro e he
  rw [h.results]
  exact List.mem_filterMap.2 ⟨_, he, rfl⟩

theorem CParked.idle (c : FullStream K Client) (U : List CItem) : CParked { c with ctl := .at .idle } U :=
  fun h => by cases h

theorem SParked.idle (c : FullStream K Server) (U : List SItem) : SParked { c with ctl := .at .idle } U :=
  fun h => by cases h

/-- The run so far: `T1` is what happened between the client and the server of the proxy (stream `d`), `T2` what
happened between the client of the proxy (stream `u`) and the server. -/
structure Relay.Bound (L : Lib) (paired : K → K → Prop) (tpc : Option (Tls K)) (gc gpc gps gs : HandleGenerator)
    (oc : ClientOptions) (op os : ServerOptions) (gr : Greeting) (r : Relay K) (R : List RelayItem) (T1 T2 : List NItem)
    (d : FullStream K Server) (u : FullStream K Client) : Prop where
  near : ∃ ops n, (Net.new gc oc gps op gr.restrict).run L ops = .ok (n, T1) ∧
    StreamNet.Tracks paired ⟨r.client, d, r.clientToProxy, r.proxyToClient⟩ n
  far : ∃ ops n, (Net.new gpc .default gs os gr).run L ops = .ok (n, T2) ∧
    StreamNet.Tracks paired ⟨u, r.server, r.proxyToServer, r.serverToProxy⟩ n
  proxy : r.proxy = .greeting tpc u ∨ r.proxy = .conversation d u ∨ r.proxy = .over
  waiting : r.proxy = .greeting tpc u → d = .new tpc (Server.new gps op gr.restrict) ∧ serverItems T1 = [] ∧
    ∀ i ∈ clientItems T2, i.Silent
  calm : ∀ p, .proxy (.panicked p) ∉ R
  clientTrace : (Client.new gc oc).trace L (clientOps (streamPart (relayClient R))) = .ok (r.client.state, clientItems T1)
  serverTrace : (Server.new gs os gr).trace L (serverOps (streamPart (relayServer R))) = .ok (r.server.state, serverItems T2)
  clientRecord : ClientRecord (streamPart (relayClient R)) (clientItems T1)
  serverRecord : ServerRecord (streamPart (relayServer R)) (serverItems T2)
  good : Good L os gr T1 T2
  clientParked : CParked r.client (clientItems T1)
  nearParked : SParked d (serverItems T1)
  farParked : CParked u (clientItems T2)
  serverParked : SParked r.server (serverItems T2)
  nearPolled : SPolled (clientSide (relayProxy R)) (serverItems T1)
  farPolled : CPolled (serverSide (relayProxy R)) (clientItems T2)

/-! ## Steps of the client and of the server -/

theorem Relay.Bound.clientStep (hs : RelaySetup L op os)
    (h : Relay.Bound L paired tpc gc gpc gps gs oc op os gr r R T1 T2 d u) {act : SideAct ClientOp}
    (ha : act ≠ .user .next ∧ ∀ b, act ≠ .user (.enqueueInput b)) (hst : r.clientStep L act = some (r', I))
    (hr : .client .refused ∉ I) :
    ∃ U : List CItem, Relay.Bound L paired tpc gc gpc gps gs oc op os gr r' (R ++ I) (T1 ++ U.map .client) T2 d u := by
  obtain ⟨⟨ops, n, h1, h2⟩, far, proxy, waiting, calm, ct, st, cr, sr, good, p1, p2, p3, p4, q1, q2⟩ := h
  simp only [Relay.clientStep] at hst
  split at hst
  · cases hst
  rename_i c' T hstep
  simp only [Option.some.injEq, Prod.mk.injEq] at hst
  obtain ⟨rfl, rfl⟩ := hst
  obtain ⟨e1, e2, e3⟩ := relay_client T
  obtain ⟨cops, hct⟩ := (Net.run_linked h1).client
  obtain ⟨n', U, u1, u2, u3, u4⟩ := h2.clientCalled (clientMachine_safe hs.lawful gc oc) ⟨_, _, hct⟩ hstep ha
    (by simpa using hr)
  refine ⟨U, ⟨_, n', Net.run_join h1 u1, u2⟩, far, proxy, ?_, ?_, ?_, ?_, ?_, ?_, good.client U, ?_, ?_, p3, p4, ?_, ?_⟩
  · intro hw
    obtain ⟨w1, w2, w3⟩ := waiting hw
    exact ⟨w1, by rw [serverItems_clients]; exact w2, w3⟩
  · intro p hp
    simp only [List.mem_append, List.mem_map] at hp
    rcases hp with hp | ⟨_, -, hp⟩
    · exact calm p hp
    · cases hp
  · rw [relayClient_append, streamPart_append, clientOps_append, e1, clientItems_clients]
    rw [h2.client] at u3
    rw [u2.client] at u3
    exact Client.trace_join ct u3
  · rw [relayServer_append, e3, List.append_nil]; exact st
  · rw [relayClient_append, streamPart_append, e1, clientItems_clients]; exact cr.append u4
  · rw [relayServer_append, e3, List.append_nil]; exact sr
  · rw [clientItems_clients]
    exact (u4.parked fun hc => (FullStream.step_cases hstep).waiting hc h2.toServer (by simpa using hr)).append _
  · rw [serverItems_clients]; exact p2
  · rw [relayProxy_append, e2, List.append_nil, serverItems_clients]; exact q1
  · rw [relayProxy_append, e2, List.append_nil]; exact q2

theorem Relay.Bound.serverStep (hs : RelaySetup L op os)
    (h : Relay.Bound L paired tpc gc gpc gps gs oc op os gr r R T1 T2 d u) {act : SideAct ServerOp}
    (ha : act ≠ .user .next ∧ ∀ b, act ≠ .user (.enqueueInput b)) (hst : r.serverStep L act = some (r', I))
    (hr : .server .refused ∉ I) :
    ∃ W : List SItem, Relay.Bound L paired tpc gc gpc gps gs oc op os gr r' (R ++ I) T1 (T2 ++ W.map .server) d u := by
  obtain ⟨near, ⟨ops, n, h1, h2⟩, proxy, waiting, calm, ct, st, cr, sr, good, p1, p2, p3, p4, q1, q2⟩ := h
  simp only [Relay.serverStep] at hst
  split at hst
  · cases hst
  rename_i c' T hstep
  simp only [Option.some.injEq, Prod.mk.injEq] at hst
  obtain ⟨rfl, rfl⟩ := hst
  obtain ⟨e1, e2, e3⟩ := relay_server T
  obtain ⟨sops, hct⟩ := (Net.run_linked h1).server
  obtain ⟨n', U, u1, u2, u3, u4⟩ := h2.serverCalled (serverMachine_safe hs.lawful gs hs.builtFar gr) ⟨_, _, hct⟩ hstep ha
    (by simpa using hr)
  refine ⟨U, near, ⟨_, n', Net.run_join h1 u1, u2⟩, proxy, ?_, ?_, ?_, ?_, ?_, ?_, good.server U, p1, p2, ?_, ?_, ?_, ?_⟩
  · intro hw
    obtain ⟨w1, w2, w3⟩ := waiting hw
    exact ⟨w1, w2, by rw [clientItems_servers]; exact w3⟩
  · intro p hp
    simp only [List.mem_append, List.mem_map] at hp
    rcases hp with hp | ⟨_, -, hp⟩
    · exact calm p hp
    · cases hp
  · rw [relayClient_append, e1, List.append_nil]; exact ct
  · rw [relayServer_append, streamPart_append, serverOps_append, e3, serverItems_servers]
    rw [h2.server] at u3
    rw [u2.server] at u3
    exact Server.trace_join st u3
  · rw [relayClient_append, e1, List.append_nil]; exact cr
  · rw [relayServer_append, streamPart_append, e3, serverItems_servers]; exact sr.append u4
  · rw [clientItems_servers]; exact p3
  · rw [serverItems_servers]
    exact (u4.parked fun hc => (FullStream.step_cases hstep).waiting hc h2.toClient (by simpa using hr)).append _
  · rw [relayProxy_append, e2, List.append_nil]; exact q1
  · rw [relayProxy_append, e2, List.append_nil, clientItems_servers]; exact q2

/-! ## Steps of the proxy -/

theorem ClientView.silent_greeted {U : List CItem} (h : ∀ i ∈ U, i.Silent) : (ClientView.of U).greeted = false := by
  induction U using snocInduction with
  | nil => rfl
  | snoc U i ih =>
    rw [ClientView.of_snoc]
    have h1 := ih fun j hj => h j (by simp [hj])
    have h2 := h i (by simp)
    cases i <;> first | exact h2.elim | exact h1

/-- The proxy moves. -/
theorem Relay.Bound.proxied (h : Relay.Bound L paired tpc gc gpc gps gs oc op os gr r R T1 T2 d u) {up down : Bytes}
    {p : Proxy K} {items : List ProxyItem}
    (near : ∃ ops n, (Net.new gc oc gps op gr.restrict).run L ops = .ok (n, T1') ∧
      StreamNet.Tracks paired ⟨r.client, d', up, r.proxyToClient ++ streamWrote (clientSide items)⟩ n)
    (far : ∃ ops n, (Net.new gpc .default gs os gr).run L ops = .ok (n, T2') ∧
      StreamNet.Tracks paired ⟨u', r.server, r.proxyToServer ++ streamWrote (serverSide items), down⟩ n)
    (proxy : p = .greeting tpc u' ∨ p = .conversation d' u' ∨ p = .over)
    (waiting : p = .greeting tpc u' → d' = .new tpc (Server.new gps op gr.restrict) ∧ serverItems T1' = [] ∧
      ∀ i ∈ clientItems T2', i.Silent)
    (calm : ∀ q, .panicked q ∉ items) (hc : clientItems T1' = clientItems T1) (hv : serverItems T2' = serverItems T2)
    (good : Good L os gr T1' T2') (np : SParked d' (serverItems T1')) (fp : CParked u' (clientItems T2'))
    (nq : ∃ W, serverItems T1' = serverItems T1 ++ W ∧ SPolled (clientSide items) W)
    (fq : ∃ W, clientItems T2' = clientItems T2 ++ W ∧ CPolled (serverSide items) W) :
    Relay.Bound L paired tpc gc gpc gps gs oc op os gr
      ({ r with clientToProxy := up, serverToProxy := down }.proxied p items) (R ++ items.map .proxy) T1' T2' d' u' := by
  obtain ⟨e1, e2, e3⟩ := relay_proxy items
  refine ⟨near, far, proxy, waiting, ?_, ?_, ?_, ?_, ?_, good, ?_, np, fp, ?_, ?_, ?_⟩
  · intro q hq
    rcases List.mem_append.1 hq with hq | hq
    · exact h.calm q hq
    · exact calm q (by simpa using hq)
  · rw [relayClient_append, e1, List.append_nil, hc]; exact h.clientTrace
  · rw [relayServer_append, e3, List.append_nil, hv]; exact h.serverTrace
  · rw [relayClient_append, e1, List.append_nil, hc]; exact h.clientRecord
  · rw [relayServer_append, e3, List.append_nil, hv]; exact h.serverRecord
  · rw [hc]; exact h.clientParked
  · rw [hv]; exact h.serverParked
  · obtain ⟨W, w1, w2⟩ := nq
    rw [relayProxy_append, e2, clientSide_append, w1]
    exact h.nearPolled.append w2
  · obtain ⟨W, w1, w2⟩ := fq
    rw [relayProxy_append, e2, serverSide_append, w1]
    exact h.farPolled.append w2

theorem calm_ofClient (T : List (FullItem ServerError ServerEvent ServerOp)) (q : Panic) :
    ProxyItem.panicked q ∉ T.map .ofClient := by
  intro h
  obtain ⟨x, -, h⟩ := List.mem_map.1 h
  cases x <;> cases h

theorem calm_ofServer (T : List (FullItem ClientError ClientEvent ClientOp)) (q : Panic) :
    ProxyItem.panicked q ∉ T.map .ofServer := by
  intro h
  obtain ⟨x, -, h⟩ := List.mem_map.1 h
  cases x <;> cases h

/-- What the branch of the client does with the other connection. -/
theorem clientBranch_items {D : List (FullItem ClientError ClientEvent ClientOp)} (hD : D = [] ∨ D = [.stream .dropped])
    (T : List (FullItem ServerError ServerEvent ServerOp)) (calls : List ClientOp) :
    let items := T.map ProxyItem.ofClient ++ (D.map ProxyItem.ofServer ++ calls.map fun op => ProxyItem.server (.user op))
    clientSide items = streamPart T ∧ streamWrote (serverSide items) = [] ∧ (∀ q, .panicked q ∉ items) ∧
      ∀ e, .poll e ∉ serverSide items := by
  intro items
  have hc : calls.map (fun op => ProxyItem.server (.user op)) =
      (calls.map fun op => FullItem.stream (.user op)).map ProxyItem.ofServer := by
    rw [List.map_map]; rfl
  have hw : ∀ l : List ClientOp, streamWrote (streamPart (l.map fun op =>
      (FullItem.stream (.user op) : FullItem ClientError ClientEvent ClientOp))) = [] := by
    intro l
    induction l with
    | nil => rfl
    | cons x l ih => exact ih
  refine ⟨?_, ?_, ?_, ?_⟩
  · show clientSide (_ ++ _) = _
    rw [hc, clientSide_append, clientSide_append, clientSide_client, clientSide_server, clientSide_server]
    simp
  · show streamWrote (serverSide (_ ++ _)) = _
    rw [hc, serverSide_append, serverSide_append, serverSide_client, serverSide_server, serverSide_server, List.nil_append,
      streamWrote_append, hw]
    rcases hD with rfl | rfl <;> rfl
  · intro q hq
    dsimp only [items] at hq
    rw [hc, List.mem_append, List.mem_append] at hq
    rcases hq with hq | hq | hq
    · exact calm_ofClient _ _ hq
    · exact calm_ofServer _ _ hq
    · exact calm_ofServer _ _ hq
  · intro e he
    dsimp only [items] at he
    rw [serverSide_append, serverSide_append, serverSide_client, serverSide_server, List.nil_append] at he
    rcases List.mem_append.1 he with he | he
    · rcases hD with rfl | rfl <;> simp [streamPart, FullItem.stream?] at he
    · obtain ⟨x, h1, h2⟩ := List.mem_filterMap.1 he
      obtain ⟨y, -, rfl⟩ := List.mem_map.1 h1
      cases h2

/-- What the branch of the server does with the other connection. -/
theorem serverBranch_items {D : List (FullItem ServerError ServerEvent ServerOp)} (hD : D = [] ∨ D = [.stream .dropped])
    (T : List (FullItem ClientError ClientEvent ClientOp)) (calls : List ServerOp) :
    let items := T.map ProxyItem.ofServer ++ (D.map ProxyItem.ofClient ++ calls.map fun op => ProxyItem.client (.user op))
    serverSide items = streamPart T ∧ streamWrote (clientSide items) = [] ∧ (∀ q, .panicked q ∉ items) ∧
      ∀ e, .poll e ∉ clientSide items := by
  intro items
  have hc : calls.map (fun op => ProxyItem.client (.user op)) =
      (calls.map fun op => FullItem.stream (.user op)).map ProxyItem.ofClient := by
    rw [List.map_map]; rfl
  have hw : ∀ l : List ServerOp, streamWrote (streamPart (l.map fun op =>
      (FullItem.stream (.user op) : FullItem ServerError ServerEvent ServerOp))) = [] := by
    intro l
    induction l with
    | nil => rfl
    | cons x l ih => exact ih
  refine ⟨?_, ?_, ?_, ?_⟩
  · show serverSide (_ ++ _) = _
    rw [hc, serverSide_append, serverSide_append, serverSide_server, serverSide_client, serverSide_client]
    simp
  · show streamWrote (clientSide (_ ++ _)) = _
    rw [hc, clientSide_append, clientSide_append, clientSide_server, clientSide_client, clientSide_client, List.nil_append,
      streamWrote_append, hw]
    rcases hD with rfl | rfl <;> rfl
  · intro q hq
    dsimp only [items] at hq
    rw [hc, List.mem_append, List.mem_append] at hq
    rcases hq with hq | hq | hq
    · exact calm_ofServer _ _ hq
    · exact calm_ofClient _ _ hq
    · exact calm_ofClient _ _ hq
  · intro e he
    dsimp only [items] at he
    rw [clientSide_append, clientSide_append, clientSide_server, clientSide_client, List.nil_append] at he
    rcases List.mem_append.1 he with he | he
    · rcases hD with rfl | rfl <;> simp [streamPart, FullItem.stream?] at he
    · obtain ⟨x, h1, h2⟩ := List.mem_filterMap.1 he
      obtain ⟨y, -, rfl⟩ := List.mem_map.1 h1
      cases h2

/-- The connection to the client moves. -/
theorem Relay.Bound.nearStep (hs : RelaySetup L op os)
    (h : Relay.Bound L paired tpc gc gpc gps gs oc op os gr r R T1 T2 d u) {act : PollAct}
    {T : List (FullItem ServerError ServerEvent ServerOp)}
    (hst : d.step (serverMachine L) (act.toIo r.clientToProxy).toStream = some (d', T)) (hr : .refused ∉ T) :
    ∃ W ops n, (Net.new gc oc gps op gr.restrict).run L ops = .ok (n, T1 ++ W.map .server) ∧
      StreamNet.Tracks paired ⟨r.client, d', act.rest r.clientToProxy, r.proxyToClient ++ streamWrote (streamPart T)⟩ n ∧
      (((∀ i ∈ W, i.Silent) ∧ Uneventful T) ∨
        ∃ pre i e, W = pre ++ [i] ∧ (∀ j ∈ pre, j.Silent) ∧ i.event? = some e ∧ Eventful T e) ∧
      SParked d' (serverItems (T1 ++ W.map .server)) ∧ SPolled (streamPart T) W := by
  obtain ⟨ops, n, h1, h2⟩ := h.near
  obtain ⟨sa, b1, b2, b3⟩ := PollAct.side (ι := ServerOp) act r.clientToProxy
  obtain ⟨sops, hst0⟩ := (Net.run_linked h1).server
  have hM := serverMachine_safe hs.lawful gps hs.builtNear gr.restrict
  rw [← b2] at hst
  obtain ⟨n', U, u1, u2, u3, u4⟩ := h2.serverCalled hM ⟨_, _, hst0⟩ hst ⟨b1 _, fun b => b1 _⟩ hr
  obtain ⟨U', v1, v2⟩ := server_called (K := K) hM (c := d) (by rw [← h2.server]; exact ⟨_, _, hst0⟩)
    (a := sa.toStream r.clientToProxy) (by rw [b2]; intro o; cases act <;> nofun) hst
  rw [← h2.server, u3] at v1
  injection v1 with v1
  obtain rfl : U = U' := congrArg Prod.snd v1
  rw [b3] at u2
  exact ⟨U, _, n', Net.run_join h1 u1, u2, v2, (by
    rw [serverItems_servers]
    exact (u4.parked fun hc => (FullStream.step_cases hst).waiting hc h2.toClient hr).append _), u4.polled⟩

/-- The connection to the server moves. -/
theorem Relay.Bound.farStep (hs : RelaySetup L op os)
    (h : Relay.Bound L paired tpc gc gpc gps gs oc op os gr r R T1 T2 d u) {act : PollAct}
    {T : List (FullItem ClientError ClientEvent ClientOp)}
    (hst : u.step (clientMachine L) (act.toIo r.serverToProxy).toStream = some (u', T)) (hr : .refused ∉ T) :
    ∃ W ops n, (Net.new gpc .default gs os gr).run L ops = .ok (n, T2 ++ W.map .client) ∧
      StreamNet.Tracks paired ⟨u', r.server, r.proxyToServer ++ streamWrote (streamPart T), act.rest r.serverToProxy⟩ n ∧
      (((∀ i ∈ W, i.Silent) ∧ Uneventful T) ∨
        ∃ pre i e, W = pre ++ [i] ∧ (∀ j ∈ pre, j.Silent) ∧ i.event? = some e ∧ Eventful T e) ∧
      CParked u' (clientItems (T2 ++ W.map .client)) ∧ CPolled (streamPart T) W := by
  obtain ⟨ops, n, h1, h2⟩ := h.far
  obtain ⟨sa, b1, b2, b3⟩ := PollAct.side (ι := ClientOp) act r.serverToProxy
  obtain ⟨cops, hct0⟩ := (Net.run_linked h1).client
  have hM := clientMachine_safe hs.lawful gpc .default
  rw [← b2] at hst
  obtain ⟨n', U, u1, u2, u3, u4⟩ := h2.clientCalled hM ⟨_, _, hct0⟩ hst ⟨b1 _, fun b => b1 _⟩ hr
  obtain ⟨U', v1, v2⟩ := client_called (K := K) hM (c := u) (by rw [← h2.client]; exact ⟨_, _, hct0⟩)
    (a := sa.toStream r.serverToProxy) (by rw [b2]; intro o; cases act <;> nofun) hst
  rw [← h2.client, u3] at v1
  injection v1 with v1
  obtain rfl : U = U' := congrArg Prod.snd v1
  rw [b3] at u2
  exact ⟨U, _, n', Net.run_join h1 u1, u2, v2, (by
    rw [clientItems_clients]
    exact (u4.parked fun hc => (FullStream.step_cases hst).waiting hc h2.toServer hr).append _), u4.polled⟩

/-- The branch of the client completes or not. -/
theorem Relay.Bound.proxyClient (hs : RelaySetup L op os)
    (h : Relay.Bound L paired tpc gc gpc gps gs oc op os gr r R T1 T2 d u)
    (hU : RelayUsers L oc .default op os gr (clientItems T1) (serverItems T2)) {act : PollAct}
    (hst : r.step L gps (.proxyClient act) = some (r', I)) (hr : .proxy (.clientTls .refused) ∉ I) :
    ∃ T1' T2' d' u', Relay.Bound L paired tpc gc gpc gps gs oc op os gr r' (R ++ I) T1' T2' d' u' := by
  simp only [Relay.step] at hst
  cases hp : r.proxy.step L gps (.client (act.toIo r.clientToProxy)) with
  | none => rw [hp] at hst; cases hst
  | some x =>
  obtain ⟨p, items⟩ := x
  rw [hp] at hst
  simp only [Option.some.injEq, Prod.mk.injEq] at hst
  obtain ⟨rfl, rfl⟩ := hst
  rcases h.proxy with hq | hq | hq <;> rw [hq] at hp
  · cases hp
  · simp only [Proxy.step] at hp
    cases hd : d.step (serverMachine L) (act.toIo r.clientToProxy).toStream with
    | none => rw [hd] at hp; cases hp
    | some x =>
    obtain ⟨d', T⟩ := x
    rw [hd] at hp
    dsimp only at hp
    have hsub : ∀ x ∈ T, ProxyItem.ofClient x ∈ items := by
      intro x hx
      have hm : ProxyItem.ofClient x ∈ T.map ProxyItem.ofClient := List.mem_map_of_mem hx
      clear hd
      repeat' split at hp
      all_goals
        simp only [Option.some.injEq, Prod.mk.injEq] at hp
        obtain ⟨-, rfl⟩ := hp
        first | exact hm | exact List.mem_append_left _ hm
    have href : FullItem.refused ∉ T := fun hm => hr (List.mem_map_of_mem (f := RelayItem.proxy) (hsub _ hm))
    obtain ⟨W, ops, n, h1, h2, hW, hk, hpo⟩ := h.nearStep hs hd href
    obtain ⟨a1, a2, -⟩ := h2.serverSound.alive
    rw [if_neg a1, if_neg a2] at hp
    obtain ⟨fops, fn, f1, f2⟩ := h.far
    cases hn : nextResult T with
    | none =>
      rw [hn] at hp
      simp only [Option.some.injEq, Prod.mk.injEq] at hp
      obtain ⟨rfl, rfl⟩ := hp
      have hsil : ∀ i ∈ W, i.Silent := by
        rcases hW with hW | ⟨pre, i, e, -, -, -, -, -, -, hW⟩
        · exact hW.1
        · rw [hn] at hW; cases hW
      exact ⟨_, _, _, _, h.proxied (up := act.rest r.clientToProxy) (down := r.serverToProxy)
        ⟨ops, n, h1, by rw [clientSide_client]; exact h2⟩
        ⟨fops, fn, f1, by rw [serverSide_client]; simpa [streamWrote] using f2⟩ (.inr (.inl rfl)) nofun
        (calm_ofClient T) (clientItems_servers ..) rfl (h.good.quietServer hsil h1) hk h.farParked
        ⟨W, serverItems_servers .., by rw [clientSide_client]; exact hpo⟩
        ⟨[], (List.append_nil _).symm, by rw [serverSide_client]; exact fun _ he => by cases he⟩⟩
    | some result =>
      rw [hn] at hp
      obtain ⟨D, hD, hD'⟩ := FullStream.dropFuture_idle (ε := ClientError) (ev := ClientEvent) (ι := ClientOp) f2.clientSound
      dsimp only at hD
      simp only [Proxy.clientBranch, hD] at hp
      cases result with
      | error e =>
        have hsil : ∀ i ∈ W, i.Silent := by
          rcases hW with hW | ⟨pre, i, e, -, -, -, -, -, -, hW⟩
          · exact hW.1
          · rw [hn] at hW; cases hW
        obtain ⟨i1, i2, i3, i4⟩ := clientBranch_items hD' T []
        have key : ∀ p, (p = .conversation d' { u with ctl := .at .idle } ∨ p = .over) →
            ∃ T1' T2' d' u', Relay.Bound L paired tpc gc gpc gps gs oc op os gr
            ({ r with clientToProxy := act.rest r.clientToProxy }.proxied p
              (T.map ProxyItem.ofClient ++ (D.map ProxyItem.ofServer ++
                [].map fun op => ProxyItem.server (.user op))))
            (R ++ (T.map ProxyItem.ofClient ++ (D.map ProxyItem.ofServer ++
                [].map fun op => ProxyItem.server (.user op))).map .proxy) T1' T2' d' u' := by
          intro p hp
          refine ⟨_, _, d', { u with ctl := .at .idle }, h.proxied (up := act.rest r.clientToProxy) (down := r.serverToProxy)
            ⟨ops, n, h1, by rw [i1]; exact h2⟩
            ⟨fops, fn, f1, by rw [i2, List.append_nil]; exact f2.clientIdle⟩ ?_ ?_ i3 (clientItems_servers ..) rfl
            (h.good.quietServer hsil h1) hk (CParked.idle u _) ⟨W, serverItems_servers .., by rw [i1]; exact hpo⟩
            ⟨[], (List.append_nil _).symm, fun _ he => absurd he (i4 _)⟩⟩
          · exact .inr hp
          · rcases hp with rfl | rfl <;> nofun
        cases e <;>
          (simp only [handleClientEvent, Option.some.injEq, Prod.mk.injEq] at hp
           obtain ⟨rfl, rfl⟩ := hp
           first | exact key _ (.inr rfl) | exact key _ (.inl rfl))
      | ok e =>
        obtain ⟨pre, i, e', rfl, hpre, hi, hev⟩ := hW.resolve_left fun hW => hW.2.2 e hn
        obtain rfl : e = e' := by
          obtain ⟨-, -, -, hev⟩ := hev
          rw [hn] at hev; cases hev; rfl
        obtain ⟨cops, hct⟩ := (Net.run_linked f1).client
        obtain ⟨⟨c', A'⟩, hall⟩ := Client.trace_safe hs.lawful (Client.new_inv L gpc .default) (cops ++ e.passed.toList)
        have hJ : ∃ c' J, fn.client.trace L e.passed.toList = .ok (c', J) := by
          rw [Client.trace_append, hct] at hall
          simp only at hall
          cases hx : fn.client.trace L e.passed.toList with
          | error q => rw [hx] at hall; cases hall
          | ok y => exact ⟨_, _, rfl⟩
        obtain ⟨c', J, hJ⟩ := hJ
        obtain ⟨hJop, hJout⟩ := passed_items hJ
        have hct' := Client.trace_join hct hJ
        obtain ⟨sops, hst0⟩ := (Net.run_linked h1).server
        rw [serverItems_servers, ← List.append_assoc] at hst0
        have hSO : SendOk L (ClientView.of (clientItems T2)) fn.client.sendState := (Client.trace_inv hs.lawful hct).1
        have hok := ((h.good.coupled.quietServer hpre).hear hSO (Server.trace_guard (T2 := []) hst0) hi
          (h.good.dataAsked hs hU hpre hi h1) hJop (relaxed := ClientOptions.default.crlfRelaxed) fun j hj => by
            subst hj; exact Client.trace_guard hs.lawful hct').2
        have hh := handleClientEvent_passed hJ hok
        rw [f2.client] at hh
        simp only [hh, Option.some.injEq, Prod.mk.injEq] at hp
        obtain ⟨rfl, rfl⟩ := hp
        obtain ⟨i1, i2, i3, i4⟩ := clientBranch_items hD' T e.passed.toList
        obtain ⟨pa1, pa2⟩ := passed_allowed e
        obtain ⟨fn', g1, -, g2⟩ := f2.clientPassed pa1 pa2 hJ hJout
        have hr' := Net.run_join f1 g1
        exact ⟨_, _, _, _, h.proxied (up := act.rest r.clientToProxy) (down := r.serverToProxy)
          ⟨ops, n, h1, by rw [i1]; exact h2⟩ ⟨_, fn', hr', by rw [i2, List.append_nil]; exact g2⟩ (.inr (.inl rfl)) nofun i3
          (clientItems_servers ..) (serverItems_clients ..) (h.good.heard hs hU hpre hi h1 hJop hr') hk (CParked.idle { u with state := c' } _)
          ⟨_, serverItems_servers .., by rw [i1]; exact hpo⟩ ⟨J, clientItems_clients .., fun _ he => absurd he (i4 _)⟩⟩
  · cases hp

/-- The proxy waits for the greeting of the server. -/
theorem Relay.Bound.proxyGreeting (hopt : proxyServerOptions L = .ok op) (hs : RelaySetup L op os)
    (h : Relay.Bound L paired tpc gc gpc gps gs oc op os gr r R T1 T2 d u)
    (hU : RelayUsers L oc .default op os gr (clientItems T1) (serverItems T2)) {act : PollAct} (hq : r.proxy = .greeting tpc u)
    {p : Proxy K} {items : List ProxyItem} (hp : (.greeting tpc u : Proxy K).step L gps (.server (act.toIo r.serverToProxy)) = some (p, items))
    (hr : .serverTls .refused ∉ items) :
    ∃ T1' T2' d' u', Relay.Bound L paired tpc gc gpc gps gs oc op os gr
      ({ r with serverToProxy := act.rest r.serverToProxy }.proxied p items) (R ++ items.map .proxy) T1' T2' d' u' := by
  obtain ⟨nops, nn, n1, n2⟩ := h.near
  simp only [Proxy.step] at hp
  cases hd : u.step (clientMachine L) (act.toIo r.serverToProxy).toStream with
  | none => rw [hd] at hp; cases hp
  | some x =>
  obtain ⟨u', T⟩ := x
  rw [hd] at hp
  dsimp only at hp
  have hsub : ∀ x ∈ T, ProxyItem.ofServer x ∈ items := by
    intro x hx
    have hm : ProxyItem.ofServer x ∈ T.map ProxyItem.ofServer := List.mem_map_of_mem hx
    clear hd
    repeat' split at hp
    all_goals
      simp only [Option.some.injEq, Prod.mk.injEq] at hp
      obtain ⟨-, rfl⟩ := hp
      first | exact hm | exact List.mem_append_left _ hm
  have href : FullItem.refused ∉ T := fun hm => hr (hsub _ hm)
  obtain ⟨W, ops, n, h1, h2, hW, hk, hpo⟩ := h.farStep hs hd href
  obtain ⟨a1, a2, -⟩ := h2.clientSound.alive
  rw [if_neg a1, if_neg a2] at hp
  obtain ⟨w1, w2, w3⟩ := h.waiting hq
  have key : ∀ p, (p = .greeting tpc u' ∨ p = .conversation d u' ∨ p = .over) →
      (p = .greeting tpc u' → ∀ i ∈ W, i.Silent) → Good L os gr T1 (T2 ++ W.map .client) →
      ∃ T1' T2' d' u', Relay.Bound L paired tpc gc gpc gps gs oc op os gr
      ({ r with serverToProxy := act.rest r.serverToProxy }.proxied p (T.map ProxyItem.ofServer))
      (R ++ (T.map ProxyItem.ofServer).map .proxy) T1' T2' d' u' := by
    intro p hp hsil hg
    refine ⟨T1, _, d, u', h.proxied (up := r.clientToProxy) (down := act.rest r.serverToProxy)
      ⟨nops, nn, n1, by rw [clientSide_server]; simpa [streamWrote] using n2⟩
      ⟨ops, n, h1, by rw [serverSide_server]; exact h2⟩ hp ?_ (calm_ofServer T) rfl (serverItems_clients ..) hg h.nearParked hk
      ⟨[], (List.append_nil _).symm, by rw [clientSide_server]; exact fun _ he => by cases he⟩
      ⟨W, clientItems_clients .., by rw [serverSide_server]; exact hpo⟩⟩
    intro hp
    refine ⟨w1, w2, ?_⟩
    rw [clientItems_clients]
    intro i hi
    rcases List.mem_append.1 hi with hi | hi
    · exact w3 i hi
    · exact hsil hp i hi
  have quiet : (∀ e, nextResult T ≠ some (.ok e)) → ∀ i ∈ W, i.Silent := by
    intro hn
    rcases hW with hW | ⟨pre, i, e, -, -, -, -, -, -, hW⟩
    · exact hW.1
    · exact (hn e hW).elim
  cases hn : nextResult T with
  | none =>
    have hsil := quiet (fun _ hx => by rw [hn] at hx; cases hx)
    rw [hn] at hp
    simp only [Option.some.injEq, Prod.mk.injEq] at hp
    obtain ⟨rfl, rfl⟩ := hp
    exact key _ (.inl rfl) (fun _ => hsil) (h.good.quietClient hsil)
  | some result =>
    cases result with
    | error e =>
      have hsil := quiet (fun _ hx => by rw [hn] at hx; cases hx)
      rw [hn] at hp
      simp only [Proxy.afterGreeting, Option.some.injEq, Prod.mk.injEq] at hp
      obtain ⟨rfl, rfl⟩ := hp
      exact key _ (.inr (.inr rfl)) nofun (h.good.quietClient hsil)
    | ok e =>
      obtain ⟨pre, i, e', rfl, hpre, hi, hev⟩ := hW.resolve_left fun hW => hW.2.2 e hn
      obtain rfl : e = e' := by
        obtain ⟨-, -, -, hev⟩ := hev
        rw [hn] at hev; cases hev; rfl
      obtain ⟨cops, hct⟩ := (Net.run_linked h1).client
      rw [clientItems_clients, ← List.append_assoc] at hct
      have hgr : (ClientView.of (clientItems T2 ++ pre)).greeted = false := by
        apply ClientView.silent_greeted
        intro j hj
        rcases List.mem_append.1 hj with hj | hj
        · exact w3 j hj
        · exact hpre j hj
      have hguard := Client.trace_guard hs.lawful hct
      obtain rfl : e = .greetingReceived gr := by
        cases i with
        | sent e' =>
          have := hguard.1
          rw [hgr] at this; cases this
        | received w e' =>
          cases hi
          rcases hguard.2.2 with ⟨-, g, rfl, -⟩ | ⟨hx, -⟩
          · cases h.good.reported hs hU hpre h1
            rfl
          · rw [hgr] at hx; cases hx
        | _ => cases hi
      rw [hn] at hp
      simp only [Proxy.afterGreeting, hopt, filterCapabilitiesInGreeting_eq, ← w1, Option.some.injEq, Prod.mk.injEq] at hp
      obtain ⟨rfl, rfl⟩ := hp
      have hg := h.good.told hs hU hpre hi h1 (J := []) rfl (n' := nn) (ops' := nops) (by simpa using n1)
      rw [List.map_nil, List.append_nil] at hg
      exact key _ (.inr (.inl rfl)) nofun hg

/-- The branch of the server completes or not. -/
theorem Relay.Bound.proxyConversation (hP : L.Proxyable) (hs : RelaySetup L op os)
    (h : Relay.Bound L paired tpc gc gpc gps gs oc op os gr r R T1 T2 d u)
    (hU : RelayUsers L oc .default op os gr (clientItems T1) (serverItems T2)) {act : PollAct}
    {p : Proxy K} {items : List ProxyItem} (hp : (.conversation d u : Proxy K).step L gps (.server (act.toIo r.serverToProxy)) = some (p, items))
    (hr : .serverTls .refused ∉ items) :
    ∃ T1' T2' d' u', Relay.Bound L paired tpc gc gpc gps gs oc op os gr
      ({ r with serverToProxy := act.rest r.serverToProxy }.proxied p items) (R ++ items.map .proxy) T1' T2' d' u' := by
  obtain ⟨nops, nn, n1, n2⟩ := h.near
  simp only [Proxy.step] at hp
  cases hd : u.step (clientMachine L) (act.toIo r.serverToProxy).toStream with
  | none => rw [hd] at hp; cases hp
  | some x =>
  obtain ⟨u', T⟩ := x
  rw [hd] at hp
  dsimp only at hp
  have hsub : ∀ x ∈ T, ProxyItem.ofServer x ∈ items := by
    intro x hx
    have hm : ProxyItem.ofServer x ∈ T.map ProxyItem.ofServer := List.mem_map_of_mem hx
    clear hd
    repeat' split at hp
    all_goals
      simp only [Option.some.injEq, Prod.mk.injEq] at hp
      obtain ⟨-, rfl⟩ := hp
      first | exact hm | exact List.mem_append_left _ hm
  have href : FullItem.refused ∉ T := fun hm => hr (hsub _ hm)
  obtain ⟨W, ops, n, h1, h2, hW, hk, hpo⟩ := h.farStep hs hd href
  obtain ⟨a1, a2, -⟩ := h2.clientSound.alive
  rw [if_neg a1, if_neg a2] at hp
  have quiet : (∀ e, nextResult T ≠ some (.ok e)) → ∀ i ∈ W, i.Silent := by
    intro hn
    rcases hW with hW | ⟨pre, i, e, -, -, -, -, -, -, hW⟩
    · exact hW.1
    · exact (hn e hW).elim
  cases hn : nextResult T with
  | none =>
    have hsil := quiet (fun _ hx => by rw [hn] at hx; cases hx)
    rw [hn] at hp
    simp only [Option.some.injEq, Prod.mk.injEq] at hp
    obtain ⟨rfl, rfl⟩ := hp
    exact ⟨_, _, _, _, h.proxied (up := r.clientToProxy) (down := act.rest r.serverToProxy)
      ⟨nops, nn, n1, by rw [clientSide_server]; simpa [streamWrote] using n2⟩
      ⟨ops, n, h1, by rw [serverSide_server]; exact h2⟩ (.inr (.inl rfl)) nofun
      (calm_ofServer T) rfl (serverItems_clients ..) (h.good.quietClient hsil) h.nearParked hk
      ⟨[], (List.append_nil _).symm, by rw [clientSide_server]; exact fun _ he => by cases he⟩
      ⟨W, clientItems_clients .., by rw [serverSide_server]; exact hpo⟩⟩
  | some result =>
    rw [hn] at hp
    obtain ⟨D, hD, hD'⟩ := FullStream.dropFuture_idle (ε := ServerError) (ev := ServerEvent) (ι := ServerOp) n2.serverSound
    dsimp only at hD
    simp only [Proxy.serverBranch, hD] at hp
    cases result with
    | error e =>
      have hsil := quiet (fun _ hx => by rw [hn] at hx; cases hx)
      obtain ⟨i1, i2, i3, i4⟩ := serverBranch_items hD' T []
      have key : ∀ p, (p = .conversation { d with ctl := .at .idle } u' ∨ p = .over) →
          ∃ T1' T2' d' u', Relay.Bound L paired tpc gc gpc gps gs oc op os gr
          ({ r with serverToProxy := act.rest r.serverToProxy }.proxied p
            (T.map ProxyItem.ofServer ++ (D.map ProxyItem.ofClient ++
              [].map fun op => ProxyItem.client (.user op))))
          (R ++ (T.map ProxyItem.ofServer ++ (D.map ProxyItem.ofClient ++
              [].map fun op => ProxyItem.client (.user op))).map .proxy) T1' T2' d' u' := by
        intro p hp
        refine ⟨_, _, { d with ctl := .at .idle }, u', h.proxied (up := r.clientToProxy) (down := act.rest r.serverToProxy)
          ⟨nops, nn, n1, by rw [i2, List.append_nil]; exact n2.serverIdle⟩
          ⟨ops, n, h1, by rw [i1]; exact h2⟩ ?_ ?_ i3 rfl (serverItems_clients ..)
          (h.good.quietClient hsil) (SParked.idle d _) hk
          ⟨[], (List.append_nil _).symm, fun _ he => absurd he (i4 _)⟩ ⟨W, clientItems_clients .., by rw [i1]; exact hpo⟩⟩
        · exact .inr hp
        · rcases hp with rfl | rfl <;> nofun
      cases e <;>
        (simp only [handleServerEvent, Option.some.injEq, Prod.mk.injEq] at hp
         obtain ⟨rfl, rfl⟩ := hp
         first | exact key _ (.inr rfl) | exact key _ (.inl rfl))
    | ok e =>
      obtain ⟨pre, i, e', rfl, hpre, hi, hev⟩ := hW.resolve_left fun hW => hW.2.2 e hn
      obtain rfl : e = e' := by
        obtain ⟨-, -, -, hev⟩ := hev
        rw [hn] at hev; cases hev; rfl
      obtain ⟨cops, hct⟩ := (Net.run_linked h1).client
      rw [clientItems_clients, ← List.append_assoc] at hct
      have hguard := Client.trace_guard hs.lawful hct
      obtain ⟨sops, hst0⟩ := (Net.run_linked n1).server
      obtain ⟨s', J, hh, hJ, hJop, hJout⟩ := handleServerEvent_answered hs.lawful hP hs.builtNear hst0
        (h.good.ready hs hU hpre hi h1) (fun q hq => continuation_decoded hguard (by rw [hi, hq]))
      rw [n2.server] at hh
      simp only [hh, Option.some.injEq, Prod.mk.injEq] at hp
      obtain ⟨rfl, rfl⟩ := hp
      obtain ⟨i1, i2, i3, i4⟩ := serverBranch_items hD' T e.answer.toList
      obtain ⟨pa1, pa2⟩ := answer_allowed e
      obtain ⟨nn', g1, -, g2⟩ := n2.serverPassed pa1 pa2 hJ hJout
      have hr' := Net.run_join n1 g1
      exact ⟨_, _, _, _, h.proxied (up := r.clientToProxy) (down := act.rest r.serverToProxy)
        ⟨_, nn', hr', by rw [i2, List.append_nil]; exact g2⟩ ⟨ops, n, h1, by rw [i1]; exact h2⟩ (.inr (.inl rfl)) nofun i3
        (clientItems_servers ..) (serverItems_clients ..) (h.good.told hs hU hpre hi h1 hJop hr') (SParked.idle { d with state := s' } _) hk
        ⟨J, serverItems_servers .., fun _ he => absurd he (i4 _)⟩ ⟨_, clientItems_clients .., by rw [i1]; exact hpo⟩⟩

/-- The proxy polls its connection to the server. -/
theorem Relay.Bound.proxyServer (hP : L.Proxyable) (hopt : proxyServerOptions L = .ok op) (hs : RelaySetup L op os)
    (h : Relay.Bound L paired tpc gc gpc gps gs oc op os gr r R T1 T2 d u)
    (hU : RelayUsers L oc .default op os gr (clientItems T1) (serverItems T2)) {act : PollAct}
    (hst : r.step L gps (.proxyServer act) = some (r', I)) (hr : .proxy (.serverTls .refused) ∉ I) :
    ∃ T1' T2' d' u', Relay.Bound L paired tpc gc gpc gps gs oc op os gr r' (R ++ I) T1' T2' d' u' := by
  simp only [Relay.step] at hst
  cases hp : r.proxy.step L gps (.server (act.toIo r.serverToProxy)) with
  | none => rw [hp] at hst; cases hst
  | some x =>
  obtain ⟨p, items⟩ := x
  rw [hp] at hst
  simp only [Option.some.injEq, Prod.mk.injEq] at hst
  obtain ⟨rfl, rfl⟩ := hst
  have hr' : .serverTls .refused ∉ items := fun hm => hr (List.mem_map_of_mem (f := RelayItem.proxy) hm)
  rcases h.proxy with hq | hq | hq <;> rw [hq] at hp
  · exact h.proxyGreeting hopt hs hU hq hp hr'
  · exact h.proxyConversation hP hs hU hp hr'
  · cases hp

end ImapFlow
