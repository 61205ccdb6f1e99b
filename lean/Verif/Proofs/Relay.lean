import Verif.Proofs.RelaySteps
import Verif.Spec.Relay

/-!
# A run through the proxy as runs on its two connections
-/

namespace ImapFlow

variable {K : Type} {L : Lib}

/-! ## Runs of two streams -/

namespace StreamNet

theorem run_append {n n1 n2 : StreamNet K} {as bs : List StreamNetAct} {G1 G2 : List StreamNetItem}
    (h1 : n.run L as = some (n1, G1)) (h2 : n1.run L bs = some (n2, G2)) : n.run L (as ++ bs) = some (n2, G1 ++ G2) := by
  induction as generalizing n G1 with
  | nil => cases h1; exact h2
  | cons a as ih =>
    obtain ⟨m, I, J, hs, hr, rfl⟩ := run_cons h1
    simp [run, hs, ih hr]

theorem clientPart_append (G G' : List StreamNetItem) : clientPart (G ++ G') = clientPart G ++ clientPart G' :=
  List.filterMap_append ..

theorem serverPart_append (G G' : List StreamNetItem) : serverPart (G ++ G') = serverPart G ++ serverPart G' :=
  List.filterMap_append ..

theorem clientPart_client (T : List (FullItem ClientError ClientEvent ClientOp)) :
    clientPart (T.map .client) = T ∧ serverPart (T.map .client) = [] := by
  induction T with
  | nil => exact ⟨rfl, rfl⟩
  | cons x T ih => exact ⟨congrArg (x :: ·) ih.1, ih.2⟩

theorem serverPart_server (T : List (FullItem ServerError ServerEvent ServerOp)) :
    serverPart (T.map .server) = T ∧ clientPart (T.map .server) = [] := by
  induction T with
  | nil => exact ⟨rfl, rfl⟩
  | cons x T ih => exact ⟨congrArg (x :: ·) ih.1, ih.2⟩

theorem step_client {n : StreamNet K} {act : SideAct ClientOp} (h : act ≠ .user .next ∧ ∀ b, act ≠ .user (.enqueueInput b)) :
    n.step L (.client act) = n.clientStep L act := by
  unfold step
  split <;> simp_all

theorem step_server {n : StreamNet K} {act : SideAct ServerOp} (h : act ≠ .user .next ∧ ∀ b, act ≠ .user (.enqueueInput b)) :
    n.step L (.server act) = n.serverStep L act := by
  unfold step
  split <;> simp_all

/-- What passes on a stream writes nothing. -/
theorem passing_step {σ ε ev ι : Type} {M : Machine σ ε ev ι} {P : ι → Prop} {c c' : FullStream K σ} {a : SideAct ι}
    {I : List (FullItem ε ev ι)} (ha : a.Passing P) (h : c.step M (a.toStream []) = some (c', I)) :
    streamWrote (streamPart I) = [] ∧ (∀ wire, a.toStream wire = a.toStream []) ∧ ∀ wire, a.rest wire = wire := by
  cases a with
  | user op =>
    refine ⟨?_, fun _ => rfl, fun _ => rfl⟩
    simp only [SideAct.toStream, FullStream.step] at h
    split at h
    · split at h <;> (cases h; rfl)
    · cases h
  | drop =>
    refine ⟨?_, fun _ => rfl, fun _ => rfl⟩
    simp only [SideAct.toStream, FullStream.step] at h
    split at h <;> first | (cases h; done) | (cases h; rfl)
  | _ => exact ha.elim

theorem run_clientPassing {n : StreamNet K} {acts : List (SideAct ClientOp)} (ha : ∀ a ∈ acts, a.Passing ClientOp.Allowed)
    {s : FullStream K Client} {I : List (FullItem ClientError ClientEvent ClientOp)}
    (h : n.client.run (clientMachine L) (acts.map (·.toStream [])) = some (s, I)) :
    n.run L (acts.map .client) = some ({ n with client := s }, I.map .client) := by
  induction acts generalizing n I with
  | nil => cases h; rfl
  | cons a acts ih =>
    have hp := ha a (List.mem_cons_self ..)
    simp only [List.map_cons, FullStream.run] at h
    cases hs : n.client.step (clientMachine L) (a.toStream []) with
    | none => rw [hs] at h; cases h
    | some x =>
      obtain ⟨s1, I1⟩ := x
      rw [hs] at h
      simp only at h
      cases hr : s1.run (clientMachine L) (acts.map (·.toStream [])) with
      | none => rw [hr] at h; cases h
      | some y =>
        obtain ⟨s2, I2⟩ := y
        rw [hr] at h
        cases h
        obtain ⟨w1, w2, w3⟩ := passing_step hp hs
        have hst : n.step L (.client a) = some ({ n with client := s1 }, I1.map .client) := by
          rw [step_client, clientStep, w2, hs]
          · simp [w1, w3]
          · constructor
            · rintro rfl; exact hp.1 rfl
            · rintro b rfl; exact hp.2 b rfl
        have := ih (n := { n with client := s1 }) (fun a h => ha a (List.mem_cons_of_mem _ h)) hr
        simp [run, hst, this]

theorem run_serverPassing {n : StreamNet K} {acts : List (SideAct ServerOp)} (ha : ∀ a ∈ acts, a.Passing ServerOp.Allowed)
    {s : FullStream K Server} {I : List (FullItem ServerError ServerEvent ServerOp)}
    (h : n.server.run (serverMachine L) (acts.map (·.toStream [])) = some (s, I)) :
    n.run L (acts.map .server) = some ({ n with server := s }, I.map .server) := by
  induction acts generalizing n I with
  | nil => cases h; rfl
  | cons a acts ih =>
    have hp := ha a (List.mem_cons_self ..)
    simp only [List.map_cons, FullStream.run] at h
    cases hs : n.server.step (serverMachine L) (a.toStream []) with
    | none => rw [hs] at h; cases h
    | some x =>
      obtain ⟨s1, I1⟩ := x
      rw [hs] at h
      simp only at h
      cases hr : s1.run (serverMachine L) (acts.map (·.toStream [])) with
      | none => rw [hr] at h; cases h
      | some y =>
        obtain ⟨s2, I2⟩ := y
        rw [hr] at h
        cases h
        obtain ⟨w1, w2, w3⟩ := passing_step hp hs
        have hst : n.step L (.server a) = some ({ n with server := s1 }, I1.map .server) := by
          rw [step_server, serverStep, w2, hs]
          · simp [w1, w3]
          · constructor
            · rintro rfl; exact hp.1 rfl
            · rintro b rfl; exact hp.2 b rfl
        have := ih (n := { n with server := s1 }) (fun a h => ha a (List.mem_cons_of_mem _ h)) hr
        simp [run, hst, this]

theorem passing_run {σ ε ev ι : Type} {M : Machine σ ε ev ι} {P : ι → Prop} {acts : List (SideAct ι)}
    (ha : ∀ a ∈ acts, a.Passing P) {c c' : FullStream K σ} {I : List (FullItem ε ev ι)}
    (h : c.run M (acts.map (·.toStream [])) = some (c', I)) : streamWrote (streamPart I) = [] := by
  induction acts generalizing c I with
  | nil => cases h; rfl
  | cons a acts ih =>
    simp only [List.map_cons, FullStream.run] at h
    cases hs : c.step M (a.toStream []) with
    | none => rw [hs] at h; cases h
    | some x =>
      obtain ⟨s1, I1⟩ := x
      rw [hs] at h
      simp only at h
      cases hr : s1.run M (acts.map (·.toStream [])) with
      | none => rw [hr] at h; cases h
      | some y =>
        obtain ⟨s2, I2⟩ := y
        rw [hr] at h
        cases h
        have h1 := (passing_step (ha a (List.mem_cons_self ..)) hs).1
        have h2 := ih (fun a h => ha a (List.mem_cons_of_mem _ h)) hr
        rw [streamPart_append]
        unfold streamWrote at *
        rw [List.flatMap_append, h1, h2]
        rfl

end StreamNet

/-! ## Projections -/

theorem relayClient_append (R R' : List RelayItem) : relayClient (R ++ R') = relayClient R ++ relayClient R' :=
  List.filterMap_append ..

theorem relayProxy_append (R R' : List RelayItem) : relayProxy (R ++ R') = relayProxy R ++ relayProxy R' :=
  List.filterMap_append ..

theorem relayServer_append (R R' : List RelayItem) : relayServer (R ++ R') = relayServer R ++ relayServer R' :=
  List.filterMap_append ..

theorem relay_client (T : List (FullItem ClientError ClientEvent ClientOp)) :
    relayClient (T.map .client) = T ∧ relayProxy (T.map .client) = [] ∧ relayServer (T.map .client) = [] := by
  induction T with
  | nil => exact ⟨rfl, rfl, rfl⟩
  | cons x T ih => exact ⟨congrArg (x :: ·) ih.1, ih.2⟩

theorem relay_proxy (T : List ProxyItem) :
    relayClient (T.map .proxy) = [] ∧ relayProxy (T.map .proxy) = T ∧ relayServer (T.map .proxy) = [] := by
  induction T with
  | nil => exact ⟨rfl, rfl, rfl⟩
  | cons x T ih => exact ⟨ih.1, congrArg (x :: ·) ih.2.1, ih.2.2⟩

theorem relay_server (T : List (FullItem ServerError ServerEvent ServerOp)) :
    relayClient (T.map .server) = [] ∧ relayProxy (T.map .server) = [] ∧ relayServer (T.map .server) = T := by
  induction T with
  | nil => exact ⟨rfl, rfl, rfl⟩
  | cons x T ih => exact ⟨ih.1, ih.2.1, congrArg (x :: ·) ih.2.2⟩

/-! ## The two connections -/

/-- A run on one connection: its client and server, what is on the way, and what happened. -/
def Hop (L : Lib) (start : StreamNet K) (toServer toClient : Bytes)
    (C : List (FullItem ClientError ClientEvent ClientOp)) (S : List (FullItem ServerError ServerEvent ServerOp))
    (c : FullStream K Client) (s : FullStream K Server) : Prop :=
  ∃ as G, start.run L as = some ({ client := c, server := s, toServer, toClient }, G) ∧
    StreamNet.clientPart G = C ∧ StreamNet.serverPart G = S

theorem Hop.extend {start : StreamNet K} {up down up' down' : Bytes}
    {C : List (FullItem ClientError ClientEvent ClientOp)} {S : List (FullItem ServerError ServerEvent ServerOp)}
    {c c' : FullStream K Client} {s s' : FullStream K Server} (h : Hop L start up down C S c s) {as : List StreamNetAct}
    {G : List StreamNetItem}
    (hr : ({ client := c, server := s, toServer := up, toClient := down } : StreamNet K).run L as =
      some ({ client := c', server := s', toServer := up', toClient := down' }, G)) :
    Hop L start up' down' (C ++ StreamNet.clientPart G) (S ++ StreamNet.serverPart G) c' s' := by
  obtain ⟨as0, G0, h1, rfl, rfl⟩ := h
  exact ⟨_, _, StreamNet.run_append h1 hr, StreamNet.clientPart_append .., StreamNet.serverPart_append ..⟩

theorem Hop.clientStep {start : StreamNet K} {up down : Bytes}
    {C I : List (FullItem ClientError ClientEvent ClientOp)} {S : List (FullItem ServerError ServerEvent ServerOp)}
    {c c' : FullStream K Client} {s : FullStream K Server} (h : Hop L start up down C S c s) {act : SideAct ClientOp}
    (ha : act ≠ .user .next ∧ ∀ b, act ≠ .user (.enqueueInput b))
    (hs : c.step (clientMachine L) (act.toStream down) = some (c', I)) :
    Hop L start (up ++ streamWrote (streamPart I)) (act.rest down) (C ++ I) S c' s := by
  have := h.extend (as := [.client act]) (G := I.map .client) (c' := c') (s' := s)
    (up' := up ++ streamWrote (streamPart I)) (down' := act.rest down)
    (by simp [StreamNet.run, StreamNet.step_client ha, StreamNet.clientStep, hs])
  rwa [(StreamNet.clientPart_client I).1, (StreamNet.clientPart_client I).2, List.append_nil] at this

theorem Hop.serverStep {start : StreamNet K} {up down : Bytes}
    {C : List (FullItem ClientError ClientEvent ClientOp)} {S I : List (FullItem ServerError ServerEvent ServerOp)}
    {c : FullStream K Client} {s s' : FullStream K Server} (h : Hop L start up down C S c s) {act : SideAct ServerOp}
    (ha : act ≠ .user .next ∧ ∀ b, act ≠ .user (.enqueueInput b))
    (hs : s.step (serverMachine L) (act.toStream up) = some (s', I)) :
    Hop L start (act.rest up) (down ++ streamWrote (streamPart I)) C (S ++ I) c s' := by
  have := h.extend (as := [.server act]) (G := I.map .server) (c' := c) (s' := s')
    (up' := act.rest up) (down' := down ++ streamWrote (streamPart I))
    (by simp [StreamNet.run, StreamNet.step_server ha, StreamNet.serverStep, hs])
  rwa [(StreamNet.serverPart_server I).1, (StreamNet.serverPart_server I).2, List.append_nil] at this

theorem Hop.clientPassing {start : StreamNet K} {up down : Bytes}
    {C I : List (FullItem ClientError ClientEvent ClientOp)} {S : List (FullItem ServerError ServerEvent ServerOp)}
    {c c' : FullStream K Client} {s : FullStream K Server} (h : Hop L start up down C S c s) {acts : List (SideAct ClientOp)}
    (ha : ∀ a ∈ acts, a.Passing ClientOp.Allowed)
    (hs : c.run (clientMachine L) (acts.map (·.toStream [])) = some (c', I)) :
    Hop L start (up ++ streamWrote (streamPart I)) down (C ++ I) S c' s := by
  rw [StreamNet.passing_run ha hs, List.append_nil]
  have := h.extend (StreamNet.run_clientPassing (n := ⟨c, s, up, down⟩) ha hs)
  rwa [(StreamNet.clientPart_client I).1, (StreamNet.clientPart_client I).2, List.append_nil] at this

theorem Hop.serverPassing {start : StreamNet K} {up down : Bytes}
    {C : List (FullItem ClientError ClientEvent ClientOp)} {S I : List (FullItem ServerError ServerEvent ServerOp)}
    {c : FullStream K Client} {s s' : FullStream K Server} (h : Hop L start up down C S c s) {acts : List (SideAct ServerOp)}
    (ha : ∀ a ∈ acts, a.Passing ServerOp.Allowed)
    (hs : s.run (serverMachine L) (acts.map (·.toStream [])) = some (s', I)) :
    Hop L start up (down ++ streamWrote (streamPart I)) C (S ++ I) c s' := by
  rw [StreamNet.passing_run ha hs, List.append_nil]
  have := h.extend (StreamNet.run_serverPassing (n := ⟨c, s, up, down⟩) ha hs)
  rwa [(StreamNet.serverPart_server I).1, (StreamNet.serverPart_server I).2, List.append_nil] at this

/-- The stream of the proxy to the client. -/
def Proxy.toClient? : Proxy K → Option (FullStream K Server)
  | .conversation c _ => some c
  | _ => none

/-- The stream of the proxy to the server. -/
def Proxy.toServer? : Proxy K → Option (FullStream K Client)
  | .conversation _ s | .greeting _ s => some s
  | _ => none

theorem Proxy.Ended.streams {p : Proxy K} (h : p.Ended) : p.toClient? = none ∧ p.toServer? = none := by
  cases p <;> first | exact h.elim | exact ⟨rfl, rfl⟩

theorem FullStream.new_eq {σ : Type} (t : Option (Tls K)) (s : σ) :
    FullStream.new t s = { tls := t, readBuffer := [], writeBuffer := [], state := s, ctl := .at .idle } := by
  cases t <;> rfl

section
variable {tc tpc tps ts : Option (Tls K)} {gc gpc gps gs : HandleGenerator} {oc : ClientOptions} {os : ServerOptions}
  {gr : Greeting}

/-- What a run through the proxy consists of. -/
structure Relay.Hops (L : Lib) (tc tpc tps ts : Option (Tls K)) (gc gpc gps gs : HandleGenerator) (oc : ClientOptions)
    (os : ServerOptions) (gr : Greeting) (r : Relay K) (R : List RelayItem) : Prop where
  proxy : ∃ as, (Proxy.start tpc tps gpc).run L gps as = some (r.proxy, relayProxy R)
  second : ∃ c, Hop L (StreamNet.new tps ts gpc .default gs os gr) r.proxyToServer r.serverToProxy
    (serverFull (relayProxy R)) (relayServer R) c r.server ∧ ∀ s, r.proxy.toServer? = some s → c = s
  first : (clientFull (relayProxy R) = [] ∧ r.proxy.toClient? = none ∧ (∀ t s, r.proxy = .greeting t s → t = tpc) ∧
      ∀ o gr', Hop L (StreamNet.new tc tpc gc oc gps o gr') r.clientToProxy r.proxyToClient (relayClient R) []
        r.client (.new tpc (Server.new gps o gr'))) ∨
    ∃ o g, proxyServerOptions L = .ok o ∧ .greetingReceived g ∈ streamEvents (serverSide (relayProxy R)) ∧
      (∀ t s, r.proxy ≠ .greeting t s) ∧
      ∃ s, Hop L (StreamNet.new tc tpc gc oc gps o g.restrict) r.clientToProxy r.proxyToClient (relayClient R)
        (clientFull (relayProxy R)) r.client s ∧ ∀ c, r.proxy.toClient? = some c → s = c

theorem Relay.Hops.start : (Relay.new tc tpc tps ts gc oc gpc gs os gr).Hops L tc tpc tps ts gc gpc gps gs oc os gr [] := by
  refine ⟨⟨[], rfl⟩, ⟨FullStream.new tps (Client.new gpc .default), ⟨[], [], ?_, rfl, rfl⟩, ?_⟩, .inl ⟨rfl, rfl, ?_, ?_⟩⟩
  · simp only [StreamNet.run, StreamNet.new, Relay.new, FullStream.new_eq]
  · intro s hs
    simpa [Relay.new, Proxy.start, Proxy.toServer?] using hs
  · intro t s hs
    simp only [Relay.new, Proxy.start, Proxy.greeting.injEq] at hs
    exact hs.1.symm
  · intro o gr'
    refine ⟨[], [], ?_, rfl, rfl⟩
    simp only [StreamNet.run, StreamNet.new, Relay.new, FullStream.new_eq]

theorem Proxy.run_snoc {p p1 p2 : Proxy K} {g : HandleGenerator} {as : List ProxyAct} {a : ProxyAct} {T I : List ProxyItem}
    (h1 : p.run L g as = some (p1, T)) (h2 : p1.step L g a = some (p2, I)) : p.run L g (as ++ [a]) = some (p2, T ++ I) := by
  induction as generalizing p T with
  | nil => cases h1; simp [Proxy.run, h2]
  | cons b as ih =>
    simp only [Proxy.run] at h1
    cases hs : p.step L g b with
    | none => rw [hs] at h1; cases h1
    | some x =>
      obtain ⟨q, J⟩ := x
      rw [hs] at h1
      simp only at h1
      cases hr : q.run L g as with
      | none => rw [hr] at h1; cases h1
      | some y =>
        obtain ⟨q', J'⟩ := y
        rw [hr] at h1
        cases h1
        simp [Proxy.run, hs, ih hr]

theorem PollAct.side {ι : Type} (a : PollAct) (wire : Bytes) : ∃ act : SideAct ι, (∀ op, act ≠ .user op) ∧
    act.toStream wire = (a.toIo wire).toStream ∧ act.rest wire = a.rest wire := by
  cases a with
  | poll => exact ⟨.callNext, nofun, rfl, rfl⟩
  | read n => exact ⟨.read n, nofun, rfl, rfl⟩
  | write n => exact ⟨.write n, nofun, rfl, rfl⟩
  | fail => exact ⟨.fail, nofun, rfl, rfl⟩

theorem clientFull_append' (T T' : List ProxyItem) : clientFull (T ++ T') = clientFull T ++ clientFull T' :=
  List.filterMap_append ..

theorem serverFull_append' (T T' : List ProxyItem) : serverFull (T ++ T') = serverFull T ++ serverFull T' :=
  List.filterMap_append ..

theorem clientSide_wrote (T : List ProxyItem) : streamWrote (clientSide T) = streamWrote (streamPart (clientFull T)) := by
  rw [streamPart_clientFull]

theorem serverSide_wrote (T : List ProxyItem) : streamWrote (serverSide T) = streamWrote (streamPart (serverFull T)) := by
  rw [streamPart_serverFull]

/-- A step on the connection of the proxy to the server keeps the two connections. -/
theorem Relay.Hops.stepServer (hL : L.Lawful) (hP : L.Proxyable) {r : Relay K} {R : List RelayItem} {act : PollAct}
    {p' : Proxy K} {J : List ProxyItem} (h : r.Hops L tc tpc tps ts gc gpc gps gs oc os gr R)
    (hp : r.proxy.step L gps (.server (act.toIo r.serverToProxy)) = some (p', J)) :
    ({ r with serverToProxy := act.rest r.serverToProxy }.proxied p' J).Hops L tc tpc tps ts gc gpc gps gs oc os gr
      (R ++ J.map RelayItem.proxy) := by
  obtain ⟨j1, j2, j3⟩ := relay_proxy J
  obtain ⟨as, ha⟩ := h.proxy
  obtain ⟨c0, s1, s2⟩ := h.second
  have hi := Proxy.run_inv hL hP ha
  obtain ⟨sa, b1, b2, b3⟩ := PollAct.side (ι := ClientOp) act r.serverToProxy
  cases hq : r.proxy with
  | conversation c s =>
    rw [hq] at hp hi s2
    obtain ⟨⟨-, hl, -⟩, o', gr', V, U, hv⟩ := hi
    obtain ⟨c', s', acts, k1, k2, k3, k4⟩ := Proxy.step_server_sides hp hv.client.alive hl
    obtain rfl := s2 s rfl
    rw [← b2] at k1
    constructor
    · exact ⟨_, by rw [relayProxy_append, j2]; exact Proxy.run_snoc ha (hq ▸ hp)⟩
    · refine ⟨s', ?_, ?_⟩
      · rw [relayProxy_append, j2, serverFull_append', relayServer_append, j3, List.append_nil]
        have := s1.clientStep ⟨b1 _, fun b => b1 _⟩ k1
        simpa only [Relay.proxied, serverSide_wrote, b3] using this
      · intro q hq'
        rcases k4 with rfl | k4
        · simpa [Relay.proxied, Proxy.toServer?] using hq'
        · have := k4.streams.2
          simp only [Relay.proxied] at hq'
          rw [this] at hq'; cases hq'
    · rcases h.first with ⟨f1, f2, -⟩ | ⟨o, g, f1, f2, f3, s, f4, f5⟩
      · rw [hq] at f2; cases f2
      · obtain rfl := f5 c (by rw [hq]; rfl)
        refine .inr ⟨o, g, f1, ?_, ?_, c', ?_, ?_⟩
        · rw [relayProxy_append, serverSide_append]
          unfold streamEvents at *
          rw [List.filterMap_append]
          exact List.mem_append_left _ f2
        · rintro t q rfl
          rcases k4 with k4 | k4
          · cases k4
          · exact k4.elim
        · rw [relayProxy_append, j2, clientFull_append', relayClient_append, j1, List.append_nil]
          have := f4.serverPassing k3 k2
          simpa only [Relay.proxied, clientSide_wrote] using this
        · intro q hq'
          rcases k4 with rfl | k4
          · simpa [Relay.proxied, Proxy.toClient?] using hq'
          · have := k4.streams.1
            simp only [Relay.proxied] at hq'
            rw [this] at hq'; cases hq'
  | greeting t s =>
    rw [hq] at hp s2
    obtain ⟨s', k1, k2, k4⟩ := Proxy.step_greeting_sides hp
    obtain rfl := s2 s rfl
    rw [← b2] at k1
    obtain ⟨f1, f2, f3, f4⟩ : clientFull (relayProxy R) = [] ∧ r.proxy.toClient? = none ∧
        (∀ t s, r.proxy = .greeting t s → t = tpc) ∧
        ∀ o gr', Hop L (StreamNet.new tc tpc gc oc gps o gr') r.clientToProxy r.proxyToClient (relayClient R) []
          r.client (.new tpc (Server.new gps o gr')) :=
      h.first.resolve_right (fun ⟨_, _, _, _, f3, _⟩ => f3 _ _ hq)
    obtain rfl := f3 _ _ hq
    have w0 : streamWrote (streamPart (clientFull J)) = [] := by rw [k2]; rfl
    constructor
    · exact ⟨_, by rw [relayProxy_append, j2]; exact Proxy.run_snoc ha (hq ▸ hp)⟩
    · refine ⟨s', ?_, ?_⟩
      · rw [relayProxy_append, j2, serverFull_append', relayServer_append, j3, List.append_nil]
        have := s1.clientStep ⟨b1 _, fun b => b1 _⟩ k1
        simpa only [Relay.proxied, serverSide_wrote, b3] using this
      · intro q hq'
        rcases k4 with rfl | k4 | ⟨o, g, -, -, rfl⟩
        · simpa [Relay.proxied, Proxy.toServer?] using hq'
        · have := k4.streams.2
          simp only [Relay.proxied] at hq'
          rw [this] at hq'; cases hq'
        · simpa [Relay.proxied, Proxy.toServer?] using hq'
    · rw [relayProxy_append, j2, clientFull_append', k2, f1, relayClient_append, j1, List.append_nil, List.append_nil]
      have w2 : r.proxyToClient ++ streamWrote (clientSide J) = r.proxyToClient := by
        rw [clientSide_wrote, w0, List.append_nil]
      simp only [Relay.proxied]
      rw [w2]
      rcases k4 with rfl | k4 | ⟨o, g, k5, k6, rfl⟩
      · exact .inl ⟨trivial, rfl, fun t s e => by cases e; rfl, f4⟩
      · exact .inl ⟨trivial, k4.streams.1, fun t s e => by rw [e] at k4; exact k4.elim, f4⟩
      · refine .inr ⟨o, g, k5, ?_, fun _ _ e => by injection e, FullStream.new t (Server.new gps o g.restrict), f4 o g.restrict, ?_⟩
        · rw [serverSide_append]
          unfold streamEvents at *
          rw [List.filterMap_append]
          exact List.mem_append_right _ k6
        · intro q hq'
          simpa [Proxy.toClient?] using hq'
  | _ => rw [hq] at hp; cases hp

/-- A step keeps the two connections. -/
theorem Relay.Hops.step (hL : L.Lawful) (hP : L.Proxyable) {r r' : Relay K} {R I : List RelayItem} {a : RelayAct}
    (h : r.Hops L tc tpc tps ts gc gpc gps gs oc os gr R) (hs : r.step L gps a = some (r', I)) :
    r'.Hops L tc tpc tps ts gc gpc gps gs oc os gr (R ++ I) := by
  have atClient : ∀ act : SideAct ClientOp, (act ≠ .user .next ∧ ∀ b, act ≠ .user (.enqueueInput b)) →
      r.clientStep L act = some (r', I) → r'.Hops L tc tpc tps ts gc gpc gps gs oc os gr (R ++ I) := by
    intro act ha hs
    simp only [Relay.clientStep] at hs
    cases hc : r.client.step (clientMachine L) (act.toStream r.proxyToClient) with
    | none => rw [hc] at hs; cases hs
    | some x =>
      obtain ⟨c', J⟩ := x
      rw [hc] at hs
      cases hs
      obtain ⟨j1, j2, j3⟩ := relay_client J
      constructor
      · rw [relayProxy_append, j2, List.append_nil]; exact h.proxy
      · rw [relayProxy_append, j2, List.append_nil, relayServer_append, j3, List.append_nil]; exact h.second
      · rw [relayProxy_append, j2, List.append_nil, relayClient_append, j1]
        rcases h.first with ⟨f1, f2, f3, f4⟩ | ⟨o, g, f1, f2, f3, s, f4, f5⟩
        · exact .inl ⟨f1, f2, f3, fun o gr' => (f4 o gr').clientStep ha hc⟩
        · exact .inr ⟨o, g, f1, f2, f3, s, f4.clientStep ha hc, f5⟩
  have atServer : ∀ act : SideAct ServerOp, (act ≠ .user .next ∧ ∀ b, act ≠ .user (.enqueueInput b)) →
      r.serverStep L act = some (r', I) → r'.Hops L tc tpc tps ts gc gpc gps gs oc os gr (R ++ I) := by
    intro act ha hs
    simp only [Relay.serverStep] at hs
    cases hc : r.server.step (serverMachine L) (act.toStream r.proxyToServer) with
    | none => rw [hc] at hs; cases hs
    | some x =>
      obtain ⟨c', J⟩ := x
      rw [hc] at hs
      cases hs
      obtain ⟨j1, j2, j3⟩ := relay_server J
      obtain ⟨c, s1, s2⟩ := h.second
      constructor
      · rw [relayProxy_append, j2, List.append_nil]; exact h.proxy
      · rw [relayProxy_append, j2, List.append_nil, relayServer_append, j3]
        exact ⟨c, s1.serverStep ha hc, s2⟩
      · rw [relayProxy_append, j2, List.append_nil, relayClient_append, j1, List.append_nil]; exact h.first
  unfold Relay.step at hs
  split at hs
  · cases hs
  · cases hs
  · cases hs
  · cases hs
  · rename_i act h1 h2
    exact atClient act ⟨fun he => h1 he, fun b he => h2 b he⟩ hs
  · rename_i act h1 h2
    exact atServer act ⟨fun he => h1 he, fun b he => h2 b he⟩ hs
  · rename_i act
    cases hp : r.proxy.step L gps (.client (act.toIo r.clientToProxy)) with
    | none => rw [hp] at hs; cases hs
    | some x =>
      obtain ⟨p', J⟩ := x
      rw [hp] at hs
      cases hs
      obtain ⟨j1, j2, j3⟩ := relay_proxy J
      obtain ⟨as, ha⟩ := h.proxy
      obtain ⟨c0, s1, s2⟩ := h.second
      have hi := Proxy.run_inv hL hP ha
      cases hq : r.proxy with
      | conversation c s =>
        rw [hq] at hp hi s2
        obtain ⟨⟨-, -, hl⟩, o', gr', V, U, hv⟩ := hi
        obtain ⟨c', s', acts, k1, k2, k3, k4⟩ := Proxy.step_client_sides hp hv.server.alive hl
        obtain rfl := s2 s rfl
        obtain ⟨sa, b1, b2, b3⟩ := PollAct.side (ι := ServerOp) act r.clientToProxy
        rw [← b2] at k1
        constructor
        · exact ⟨_, by rw [relayProxy_append, j2]; exact Proxy.run_snoc ha (hq ▸ hp)⟩
        · refine ⟨s', ?_, ?_⟩
          · rw [relayProxy_append, j2, serverFull_append', relayServer_append, j3, List.append_nil]
            have := s1.clientPassing k3 k2
            simpa only [Relay.proxied, serverSide_wrote] using this
          · intro q hq'
            rcases k4 with rfl | k4
            · simpa [Relay.proxied, Proxy.toServer?] using hq'
            · have := k4.streams.2
              simp only [Relay.proxied] at hq'
              rw [this] at hq'; cases hq'
        · rcases h.first with ⟨f1, f2, -⟩ | ⟨o, g, f1, f2, f3, s, f4, f5⟩
          · rw [hq] at f2; cases f2
          · obtain rfl := f5 c (by rw [hq]; rfl)
            refine .inr ⟨o, g, f1, ?_, ?_, c', ?_, ?_⟩
            · rw [relayProxy_append, serverSide_append]
              unfold streamEvents at *
              rw [List.filterMap_append]
              exact List.mem_append_left _ f2
            · rintro t q rfl
              rcases k4 with k4 | k4
              · cases k4
              · exact k4.elim
            · rw [relayProxy_append, j2, clientFull_append', relayClient_append, j1, List.append_nil]
              have := f4.serverStep ⟨b1 _, fun b => b1 _⟩ k1
              simpa only [Relay.proxied, clientSide_wrote, b3] using this
            · intro q hq'
              rcases k4 with rfl | k4
              · simpa [Relay.proxied, Proxy.toClient?] using hq'
              · have := k4.streams.1
                simp only [Relay.proxied] at hq'
                rw [this] at hq'; cases hq'
      | _ => rw [hq] at hp; cases hp
  · rename_i act
    cases hp : r.proxy.step L gps (.server (act.toIo r.serverToProxy)) with
    | none => rw [hp] at hs; cases hs
    | some x =>
      obtain ⟨p', J⟩ := x
      rw [hp] at hs
      cases hs
      exact h.stepServer hL hP hp

theorem Relay.Hops.run (hL : L.Lawful) (hP : L.Proxyable) {r r' : Relay K} {R I : List RelayItem} {as : List RelayAct}
    (h : r.Hops L tc tpc tps ts gc gpc gps gs oc os gr R) (hs : r.run L gps as = some (r', I)) :
    r'.Hops L tc tpc tps ts gc gpc gps gs oc os gr (R ++ I) := by
  induction as generalizing r R I with
  | nil => cases hs; rw [List.append_nil]; exact h
  | cons a as ih =>
    simp only [Relay.run] at hs
    cases h1 : r.step L gps a with
    | none => rw [h1] at hs; cases hs
    | some x =>
      obtain ⟨q, J⟩ := x
      rw [h1] at hs
      simp only at hs
      cases h2 : q.run L gps as with
      | none => rw [h2] at hs; cases hs
      | some y =>
        obtain ⟨q', J'⟩ := y
        rw [h2] at hs
        cases hs
        rw [← List.append_assoc]
        exact ih (h.step hL hP h1) h2

end

end ImapFlow
