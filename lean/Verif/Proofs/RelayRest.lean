import Verif.Proofs.RelayMoves

/-!
# With the proxy between them, a client and a server whose users only wait come to rest
-/

namespace ImapFlow

variable {K : Type} {paired : K → K → Prop} {L : Lib} {tc tpc tps ts : Option (Tls K)} {gc gpc gps gs : HandleGenerator}
  {oc : ClientOptions} {op os : ServerOptions} {gr gx : Greeting} {r r' : Relay K} {R I : List RelayItem} {n1 n2 : Net}
  {d : FullStream K Server} {u : FullStream K Client}

namespace Relay

/-- The connection between the client and the proxy. -/
def near (r : Relay K) (d : FullStream K Server) : StreamNet K := ⟨r.client, d, r.clientToProxy, r.proxyToClient⟩

/-- The connection between the proxy and the server. -/
def far (r : Relay K) (u : FullStream K Client) : StreamNet K := ⟨u, r.server, r.proxyToServer, r.serverToProxy⟩

/-- Both connections, as runs of clients and servers without streams. -/
structure Laid (L : Lib) (paired : K → K → Prop) (gc gpc gps gs : HandleGenerator) (oc : ClientOptions)
    (op os : ServerOptions) (gx gr : Greeting) (r : Relay K) (d : FullStream K Server) (u : FullStream K Client)
    (n1 n2 : Net) : Prop where
  near : ∃ ops T, (Net.new gc oc gps op gx).run L ops = .ok (n1, T)
  nearTracks : StreamNet.Tracks paired (r.near d) n1
  far : ∃ ops T, (Net.new gpc .default gs os gr).run L ops = .ok (n2, T)
  farTracks : StreamNet.Tracks paired (r.far u) n2
  proxy : (∃ t, r.proxy = .greeting t u) ∨ r.proxy = .conversation d u ∨ r.proxy.Ended

/-- What remains to be done. -/
abbrev Work := Nat × Nat × (Nat × Nat × Nat × Nat) × (Nat × Nat × Nat × Nat) × Nat × Nat

def Work.Less : Work → Work → Prop :=
  Prod.Lex (· < ·) (Prod.Lex (· < ·) (Prod.Lex Net.Lighter (Prod.Lex Net.Lighter (Prod.Lex (· < ·) (· < ·)))))

theorem Work.less_wf : WellFounded Work.Less :=
  (Prod.lex ⟨_, Nat.lt_wfRel.wf⟩ (Prod.lex ⟨_, Nat.lt_wfRel.wf⟩ (Prod.lex ⟨_, Net.lighter_wf⟩
    (Prod.lex ⟨_, Net.lighter_wf⟩ (Prod.lex ⟨_, Nat.lt_wfRel.wf⟩ ⟨_, Nat.lt_wfRel.wf⟩))))).wf

theorem Work.less_iff {a b e f a' b' e' f' : Nat} {c d c' d' : Nat × Nat × Nat × Nat} :
    Work.Less (a, b, c, d, e, f) (a', b', c', d', e', f') ↔
    a < a' ∨ (a = a' ∧ (b < b' ∨ (b = b' ∧ (Net.Lighter c c' ∨ (c = c' ∧ (Net.Lighter d d' ∨
      (d = d' ∧ (e < e' ∨ (e = e' ∧ f < f'))))))))) := by
  simp only [Work.Less, Prod.lex_def]

/-- What remains to be done. -/
def work (L : Lib) (r : Relay K) (d : FullStream K Server) (u : FullStream K Client) (n1 n2 : Net) : Work :=
  (n1.client.sendState.weight L, n1.backlog, n2.weight L, n1.weight L, (r.near d).bytes + (r.far u).bytes,
    (r.near d).idles + (r.far u).idles)

/-- The near connection moves and the other one does not. -/
theorem less_near {r' : Relay K} {d' : FullStream K Server} {u' : FullStream K Client} {n1' : Net}
    (h1 : n1'.client.sendState.weight L < n1.client.sendState.weight L ∨
        (n1'.client.sendState.weight L = n1.client.sendState.weight L ∧ n1'.backlog ≤ n1.backlog))
    (h2 : StreamNet.Less L (r'.near d') n1' (r.near d) n1) (h3 : r'.far u' = r.far u) :
    Work.Less (r'.work L d' u' n1' n2) (r.work L d u n1 n2) := by
  simp only [work, Work.less_iff, h3]
  rcases h1 with h1 | ⟨h1, hb⟩
  · exact .inl h1
  · refine .inr ⟨h1, ?_⟩
    rcases Nat.lt_or_ge n1'.backlog n1.backlog with hb' | hb'
    · exact .inl hb'
    · refine .inr ⟨by omega, .inr ⟨trivial, ?_⟩⟩
      rcases h2 with h2 | ⟨h2, h2'⟩
      · exact .inl h2
      · exact .inr ⟨h2, by omega⟩

/-- The far connection moves and the other one does not. -/
theorem less_far {r' : Relay K} {d' : FullStream K Server} {u' : FullStream K Client} {n2' : Net}
    (h2 : StreamNet.Less L (r'.far u') n2' (r.far u) n2) (h3 : r'.near d' = r.near d) :
    Work.Less (r'.work L d' u' n1 n2') (r.work L d u n1 n2) := by
  simp only [work, Work.less_iff, h3]
  refine .inr ⟨trivial, .inr ⟨trivial, ?_⟩⟩
  rcases h2 with h2 | ⟨h2, h2'⟩
  · exact .inl h2
  · exact .inr ⟨h2, .inr ⟨trivial, by omega⟩⟩

theorem Laid.clientStep (hL : L.Lawful) (hb : ServerOptions.Built L op) (hbm : 0 < op.maxCommandSize)
    (h : Laid L paired gc gpc gps gs oc op os gx gr r d u n1 n2) {act : SideAct ClientOp}
    (hi : act.Internal r.proxyToClient) (hs : r.clientStep L act = some (r', I)) (hr : .client .refused ∉ I) :
    ∃ n1', Laid L paired gc gpc gps gs oc op os gx gr r' d u n1' n2 ∧
      Work.Less (r'.work L d u n1' n2) (r.work L d u n1 n2) := by
  obtain ⟨ops, T, hn⟩ := h.near
  simp only [Relay.clientStep] at hs
  split at hs
  · cases hs
  rename_i c' V hst
  cases hs
  obtain ⟨n1', ops', T', k1, k2, k3, k4, -⟩ := h.nearTracks.clientMoved hL hb hbm hn (sn := r.near d) hi hst (by simpa using hr)
  exact ⟨n1', ⟨⟨_, _, k1⟩, k2, h.far, h.farTracks, h.proxy⟩, less_near k4 k3 rfl⟩

theorem Laid.serverStep (hL : L.Lawful) (hO : ServerOptions.Built L os) (hmax : 0 < os.maxCommandSize)
    (h : Laid L paired gc gpc gps gs oc op os gx gr r d u n1 n2) {act : SideAct ServerOp}
    (hi : act.Internal r.proxyToServer) (hs : r.serverStep L act = some (r', I)) (hr : .server .refused ∉ I) :
    ∃ n2', Laid L paired gc gpc gps gs oc op os gx gr r' d u n1 n2' ∧
      Work.Less (r'.work L d u n1 n2') (r.work L d u n1 n2) := by
  obtain ⟨ops, T, hn⟩ := h.far
  simp only [Relay.serverStep] at hs
  split at hs
  · cases hs
  rename_i c' V hst
  cases hs
  obtain ⟨n2', ops', T', k1, k2, k3, -⟩ := h.farTracks.serverMoved hL hO hmax hn (sn := r.far u) hi hst (by simpa using hr)
  exact ⟨n2', ⟨h.near, h.nearTracks, ⟨_, _, k1⟩, k2, h.proxy⟩, less_far k3 rfl⟩

/-- The proxy moves on its connection to the client. -/
theorem Laid.proxyClient (hL : L.Lawful) (hb : ServerOptions.Built L op) (hbm : 0 < op.maxCommandSize)
    (hO : ServerOptions.Built L os)
    (h : Laid L paired gc gpc gps gs oc op os gx gr r d u n1 n2) {act : PollAct}
    (hi : act.Internal r.clientToProxy) (hs : r.step L gps (.proxyClient act) = some (r', I))
    (hr : .proxy (.clientTls .refused) ∉ I) :
    ∃ d' u' n1' n2', Laid L paired gc gpc gps gs oc op os gx gr r' d' u' n1' n2' ∧
      Work.Less (r'.work L d' u' n1' n2') (r.work L d u n1 n2) := by
  obtain ⟨ops, T, hn⟩ := h.near
  obtain ⟨ops2, T2, hn2⟩ := h.far
  simp only [Relay.step] at hs
  split at hs
  · cases hs
  rename_i p J hp
  cases hs
  rcases h.proxy with ⟨t, hq⟩ | hq | hq
  · rw [hq] at hp; cases hp
  · rw [hq] at hp
    have ha := h.farTracks.clientSound.alive
    obtain ⟨d', u', acts, k1, k2, k3, k4, k5⟩ := Proxy.step_client_passes hp ha.1 ⟨ha.2.1, ha.2.2⟩
    obtain ⟨sa, s1, s2, s3⟩ := PollAct.internal (ι := ServerOp) hi
    rw [← s2] at k1
    have href : .refused ∉ clientFull J := fun hm => hr (by simpa using clientTls_refused hm)
    obtain ⟨n1', ops', T', m1, m2, m3, m4, m5, m6, m7⟩ :=
      h.nearTracks.serverMoved hL hb hbm hn (sn := r.near d) s1 k1 href
    obtain ⟨n2', ops2', T2', f1, f2, f3⟩ := h.farTracks.clientPasses hL hO hn2 k3 (sn := r.far u) k2
    rw [show sa.rest (r.near d).toServer = act.rest r.clientToProxy from s3] at m2 m3
    refine ⟨d', u', n1', n2', ⟨⟨_, _, m1⟩, ?_, ⟨_, _, f1⟩, ?_, ?_⟩, ?_⟩
    · simpa only [Relay.near, Relay.proxied, clientSide_wrote] using m2
    · simpa only [Relay.far, Relay.proxied, serverSide_wrote] using f2
    · exact .inr k4
    · have hw : n1'.client.sendState.weight L = n1.client.sendState.weight L := by rw [m4]
      rcases k5 with ⟨rfl, k5⟩ | ⟨res, k5, k6⟩
      · have e : n2' = n2 := f3 (by rw [k5]; simp)
        subst e
        refine less_near (.inr ⟨hw, m5⟩) ?_ ?_
        · simpa only [Relay.near, Relay.proxied, clientSide_wrote] using m3
        · simp only [Relay.far, Relay.proxied, serverSide_wrote, k5]; simp [streamPart, streamWrote]
      · simp only [work, Work.less_iff]
        refine .inr ⟨hw, ?_⟩
        rcases k6 with k6 | ⟨e, rfl, k6⟩
        · rcases Nat.lt_or_ge n1'.backlog n1.backlog with hb' | hb'
          · exact .inl hb'
          · exact .inr ⟨by omega, .inr ⟨by rw [f3 k6], .inl (m6 _ k5)⟩⟩
        · exact .inl (m7 e k6 k5)
  · cases hx : r.proxy <;> rw [hx] at hp hq <;> first | exact hq.elim | cases hp

/-- The proxy moves on its connection to the server. -/
theorem Laid.proxyServer (hL : L.Lawful) (hb : ServerOptions.Built L op)
    (hO : ServerOptions.Built L os) (hmax : 0 < os.maxCommandSize)
    (h : Laid L paired gc gpc gps gs oc op os gx gr r d u n1 n2) {act : PollAct}
    (hi : act.Internal r.serverToProxy) (hs : r.step L gps (.proxyServer act) = some (r', I))
    (hr : .proxy (.serverTls .refused) ∉ I)
    (hg : ∀ t c s s', r.proxy = .greeting t s → r'.proxy ≠ .conversation c s') :
    ∃ d' u' n1' n2', Laid L paired gc gpc gps gs oc op os gx gr r' d' u' n1' n2' ∧
      Work.Less (r'.work L d' u' n1' n2') (r.work L d u n1 n2) := by
  obtain ⟨ops, T, hn⟩ := h.near
  obtain ⟨ops2, T2, hn2⟩ := h.far
  simp only [Relay.step] at hs
  split at hs
  · cases hs
  rename_i p J hp
  cases hs
  obtain ⟨sa, s1, s2, s3⟩ := PollAct.internal (ι := ClientOp) hi
  have href : .refused ∉ serverFull J := fun hm => hr (by simpa using serverTls_refused hm)
  rcases h.proxy with ⟨t, hq⟩ | hq | hq
  · rw [hq] at hp
    obtain ⟨u', k1, k2, k3⟩ := Proxy.step_greeting_sides hp
    rw [← s2] at k1
    obtain ⟨n2', ops2', T2', m1, m2, m3, -, -⟩ := h.farTracks.clientMoved hL hO hmax hn2 (sn := r.far u) s1 k1 href
    rw [show sa.rest (r.far u).toClient = act.rest r.serverToProxy from s3] at m2 m3
    have e : ({ r with serverToProxy := act.rest r.serverToProxy }.proxied p J).near d = r.near d := by
      simp only [Relay.near, Relay.proxied, clientSide_wrote, k2]; simp [streamPart, streamWrote]
    refine ⟨d, u', n1, n2', ⟨h.near, e ▸ h.nearTracks, ⟨_, _, m1⟩, ?_, ?_⟩, less_far ?_ e⟩
    · simpa only [Relay.far, Relay.proxied, serverSide_wrote] using m2
    · rcases k3 with rfl | k3 | ⟨o, g, -, -, rfl⟩
      · exact .inl ⟨t, rfl⟩
      · exact .inr (.inr k3)
      · exact absurd rfl (hg _ _ _ _ hq)
    · simpa only [Relay.far, Relay.proxied, serverSide_wrote] using m3
  · rw [hq] at hp
    have ha := h.nearTracks.serverSound.alive
    obtain ⟨d', u', acts, k1, k2, k3, k4, k5⟩ := Proxy.step_server_passes hp ha.1 ⟨ha.2.1, ha.2.2⟩
    rw [← s2] at k1
    obtain ⟨n2', ops2', T2', m1, m2, m3, -, m5⟩ := h.farTracks.clientMoved hL hO hmax hn2 (sn := r.far u) s1 k1 href
    rw [show sa.rest (r.far u).toClient = act.rest r.serverToProxy from s3] at m2 m3
    rcases k5 with ⟨rfl, k5⟩ | ⟨res, k5⟩
    · have e : ({ r with serverToProxy := act.rest r.serverToProxy }.proxied p J).near d' = r.near d' := by
        simp only [Relay.near, Relay.proxied, clientSide_wrote, k5]; simp [streamPart, streamWrote]
      refine ⟨d', u', n1, n2', ⟨h.near, e ▸ h.nearTracks, ⟨_, _, m1⟩, ?_, .inr k4⟩, less_far ?_ e⟩
      · simpa only [Relay.far, Relay.proxied, serverSide_wrote] using m2
      · simpa only [Relay.far, Relay.proxied, serverSide_wrote] using m3
    · obtain ⟨n1', ops', T', f1, f2, f3, f4⟩ := h.nearTracks.serverPasses hL hb hn k3 (sn := r.near d) k2
      refine ⟨d', u', n1', n2', ⟨⟨_, _, f1⟩, ?_, ⟨_, _, m1⟩, ?_, .inr k4⟩, ?_⟩
      · simpa only [Relay.near, Relay.proxied, clientSide_wrote] using f2
      · simpa only [Relay.far, Relay.proxied, serverSide_wrote] using m2
      · simp only [work, Work.less_iff]
        refine .inr ⟨by rw [f3], ?_⟩
        rcases Nat.lt_or_ge n1'.backlog n1.backlog with hb' | hb'
        · exact .inl hb'
        · exact .inr ⟨by omega, .inl (m5 _ k5)⟩
  · cases hx : r.proxy <;> rw [hx] at hp hq <;> first | exact hq.elim | cases hp

/-- A step without users spends work, unless the conversation just begins. -/
theorem Laid.moves (hL : L.Lawful) (hb : ServerOptions.Built L op) (hbm : 0 < op.maxCommandSize)
    (hO : ServerOptions.Built L os) (hmax : 0 < os.maxCommandSize)
    (h : Laid L paired gc gpc gps gs oc op os gx gr r d u n1 n2) (hm : r.Moves L gps r' I) (hr : RelayAccepted I)
    (hg : ∀ t c s s', r.proxy = .greeting t s → r'.proxy ≠ .conversation c s') :
    ∃ d' u' n1' n2', Laid L paired gc gpc gps gs oc op os gx gr r' d' u' n1' n2' ∧
      Work.Less (r'.work L d' u' n1' n2') (r.work L d u n1 n2) := by
  obtain ⟨a, hi, hs⟩ := hm
  cases a with
  | client act =>
    have hs' : r.clientStep L act = some (r', I) := by
      cases act with
      | user op => exact hi.elim
      | _ => exact hs
    obtain ⟨n1', h1, h2⟩ := h.clientStep hL hb hbm hi hs' hr.1
    exact ⟨_, _, _, _, h1, h2⟩
  | server act =>
    have hs' : r.serverStep L act = some (r', I) := by
      cases act with
      | user op => exact hi.elim
      | _ => exact hs
    obtain ⟨n1', h1, h2⟩ := h.serverStep hL hO hmax hi hs' hr.2.1
    exact ⟨_, _, _, _, h1, h2⟩
  | proxyClient act => exact h.proxyClient hL hb hbm hO hi hs hr.2.2.1
  | proxyServer act => exact h.proxyServer hL hb hO hmax hi hs hr.2.2.2 hg

/-- There is no infinite run without users in which the conversation does not just begin. -/
theorem Laid.rest (hL : L.Lawful) (hb : ServerOptions.Built L op) (hbm : 0 < op.maxCommandSize)
    (hO : ServerOptions.Built L os) (hmax : 0 < os.maxCommandSize) {f : Nat → Relay K} {g : Nat → List RelayItem}
    (h : Laid L paired gc gpc gps gs oc op os gx gr (f 0) d u n1 n2) (hm : ∀ i, (f i).Moves L gps (f (i + 1)) (g i))
    (hr : ∀ i, RelayAccepted (g i))
    (hg : ∀ i t c s s', (f i).proxy = .greeting t s → (f (i + 1)).proxy ≠ .conversation c s') : False := by
  obtain ⟨w, hw⟩ : ∃ w, w = (f 0).work L d u n1 n2 := ⟨_, rfl⟩
  induction w using Work.less_wf.induction generalizing f g d u n1 n2 with
  | _ w ih =>
    obtain ⟨d', u', n1', n2', h1, h2⟩ := h.moves hL hb hbm hO hmax (hm 0) (hr 0) (hg 0)
    exact ih _ (hw ▸ h2) (f := fun i => f (i + 1)) (g := fun i => g (i + 1)) h1 (fun i => hm (i + 1)) (fun i => hr (i + 1))
      (fun i => hg (i + 1)) rfl

/-- Every run of the relay leads to such connections. -/
theorem laid (hL : L.Lawful) (hP : L.Proxyable) (hopt : proxyServerOptions L = .ok op) (hO : ServerOptions.Built L os)
    (hc : Handshaken paired tc tpc) (hv : Handshaken paired tps ts) {as : List RelayAct}
    (h : (Relay.new tc tpc tps ts gc oc gpc gs os gr).run L gps as = some (r, R)) (hr : RelayAccepted R) :
    ∃ gx d u n1 n2, Laid L paired gc gpc gps gs oc op os gx gr r d u n1 n2 ∧
      (r.client.Pending ∧ d.Pending) ∧ (u.Pending ∧ r.server.Pending) := by
  obtain ⟨g, c, s, G1, G2, -, c1, c2, k1, k2, -⟩ := Relay.connections hL hP hopt h
  have hr1 : .client .refused ∉ G1 ∧ .server .refused ∉ G1 :=
    ⟨fun hx => hr.1 (mem_relayClient.1 ((c1.client.2 _).1 hx)),
      fun hx => hr.2.2.1 (mem_relayProxy.1 (clientTls_refused ((c1.server.2 _).1 hx)))⟩
  have hr2 : .client .refused ∉ G2 ∧ .server .refused ∉ G2 :=
    ⟨fun hx => hr.2.2.2 (mem_relayProxy.1 (serverTls_refused ((c2.client.2 _).1 hx))),
      fun hx => hr.2.1 (mem_relayServer.1 ((c2.server.2 _).1 hx))⟩
  obtain ⟨as1, run1⟩ := c1.run
  obtain ⟨as2, run2⟩ := c2.run
  obtain ⟨n1, T1, a1, a2, -⟩ := StreamNet.Tracks.run (ops := []) hL (proxyServerOptions_built hL hP hopt) rfl
    (StreamNet.new_tracks hc gc gps oc op g) run1 hr1
  obtain ⟨n2, T2, b1, b2, -⟩ := StreamNet.Tracks.run (ops := []) hL hO rfl
    (StreamNet.new_tracks hv gpc gs .default os gr) run2 hr2
  refine ⟨g, s, c, n1, n2, ⟨⟨_, _, a1⟩, a2, ⟨_, _, b1⟩, b2, ?_⟩, ?_, ?_⟩
  · cases hq : r.proxy with
    | greeting t s' => rw [k1 s' (by rw [hq]; rfl)]; exact .inl ⟨t, rfl⟩
    | conversation c' s' =>
      rw [k1 s' (by rw [hq]; rfl), k2 c' (by rw [hq]; rfl)]; exact .inr (.inl rfl)
    | _ => exact .inr (.inr trivial)
  · exact StreamNet.run_pending run1 ⟨by simp [FullStream.Pending, StreamNet.new], by simp [FullStream.Pending, StreamNet.new]⟩
  · exact StreamNet.run_pending run2 ⟨by simp [FullStream.Pending, StreamNet.new], by simp [FullStream.Pending, StreamNet.new]⟩

theorem run_snoc {r0 r1 r2 : Relay K} {g : HandleGenerator} {as : List RelayAct} {a : RelayAct} {R I : List RelayItem}
    (h1 : r0.run L g as = some (r1, R)) (h2 : r1.step L g a = some (r2, I)) : r0.run L g (as ++ [a]) = some (r2, R ++ I) := by
  induction as generalizing r0 R with
  | nil => cases h1; simp [Relay.run, h2]
  | cons b as ih =>
    simp only [Relay.run] at h1
    cases hs : r0.step L g b with
    | none => rw [hs] at h1; cases h1
    | some x =>
      obtain ⟨q, J⟩ := x
      rw [hs] at h1
      simp only at h1
      cases hr : q.run L g as with
      | none => rw [hr] at h1; cases h1
      | some y =>
        obtain ⟨q', J'⟩ := y
        rw [hr] at h1
        cases h1
        simp [Relay.run, hs, ih hr]

theorem _root_.ImapFlow.RelayAccepted.append (h : RelayAccepted R) (h' : RelayAccepted I) : RelayAccepted (R ++ I) := by
  obtain ⟨a, b, c, d⟩ := h
  obtain ⟨a', b', c', d'⟩ := h'
  exact ⟨by simp [a, a'], by simp [b, b'], by simp [c, c'], by simp [d, d']⟩

theorem _root_.ImapFlow.RelayAccepted.right (h : RelayAccepted (R ++ I)) : RelayAccepted I := by
  obtain ⟨a, b, c, d⟩ := h
  simp only [List.mem_append, not_or] at a b c d
  exact ⟨a.2, b.2, c.2, d.2⟩

/-- A run, and then steps without users. -/
theorem Unattended.run {r0 : Relay K} {as : List RelayAct} (hu : r.Unattended L gps r' I)
    (h : r0.run L gps as = some (r, R)) : ∃ as', r0.run L gps as' = some (r', R ++ I) := by
  induction hu with
  | nil => exact ⟨as, by rw [List.append_nil]; exact h⟩
  | snoc hu hm ih =>
    obtain ⟨as', h'⟩ := ih
    obtain ⟨a, -, hs⟩ := hm
    exact ⟨_, by rw [← List.append_assoc]; exact run_snoc h' hs⟩

/-- A conversation does not go back to awaiting the greeting. -/
theorem _root_.ImapFlow.Proxy.step_forward {p p' : Proxy K} {a : ProxyAct} {J : List ProxyItem} (h : p.step L gps a = some (p', J))
    (hp : ∀ t s, p ≠ .greeting t s) : ∀ t s, p' ≠ .greeting t s := by
  rintro t s rfl
  cases p with
  | greeting t s => exact hp t s rfl
  | conversation c s =>
    cases a with
    | client act =>
      simp only [Proxy.step] at h
      repeat' split at h
      all_goals try (cases h; done)
      rename_i r hr
      simp only [Proxy.clientBranch] at h
      repeat' split at h
      all_goals cases h
    | server act =>
      simp only [Proxy.step] at h
      repeat' split at h
      all_goals try (cases h; done)
      rename_i r hr
      simp only [Proxy.serverBranch] at h
      repeat' split at h
      all_goals cases h
  | _ => cases h

theorem Moves.forward (h : r.Moves L gps r' I) (hp : ∀ t s, r.proxy ≠ .greeting t s) : ∀ t s, r'.proxy ≠ .greeting t s := by
  obtain ⟨a, hi, hs⟩ := h
  cases a with
  | client act =>
    have hs' : r.clientStep L act = some (r', I) := by
      cases act with
      | user op => exact hi.elim
      | _ => exact hs
    simp only [Relay.clientStep] at hs'
    split at hs' <;> cases hs'
    exact hp
  | server act =>
    have hs' : r.serverStep L act = some (r', I) := by
      cases act with
      | user op => exact hi.elim
      | _ => exact hs
    simp only [Relay.serverStep] at hs'
    split at hs' <;> cases hs'
    exact hp
  | proxyClient act =>
    simp only [Relay.step] at hs
    split at hs
    · cases hs
    · rename_i h; cases hs; exact Proxy.step_forward h hp
  | proxyServer act =>
    simp only [Relay.step] at hs
    split at hs
    · cases hs
    · rename_i h; cases hs; exact Proxy.step_forward h hp

/-- There is no infinite run without users. -/
theorem rest (hL : L.Lawful) (hP : L.Proxyable) (hopt : proxyServerOptions L = .ok op) (hO : ServerOptions.Built L os)
    (hmax : 0 < os.maxCommandSize) (hc : Handshaken paired tc tpc) (hv : Handshaken paired tps ts) {as : List RelayAct}
    (h : (Relay.new tc tpc tps ts gc oc gpc gs os gr).run L gps as = some (r, R)) (hr : RelayAccepted R)
    {f : Nat → Relay K} {g : Nat → List RelayItem} (h0 : f 0 = r) (hm : ∀ i, (f i).Moves L gps (f (i + 1)) (g i))
    (hg : ∀ i, RelayAccepted (g i)) : False := by
  have hb := proxyServerOptions_built hL hP hopt
  have hbm := proxyServerOptions_max hopt
  have reach : ∀ i, ∃ as R, (Relay.new tc tpc tps ts gc oc gpc gs os gr).run L gps as = some (f i, R) ∧ RelayAccepted R := by
    intro i
    induction i with
    | zero => exact ⟨as, R, by rw [h0]; exact h, hr⟩
    | succ i ih =>
      obtain ⟨as, R, h1, h2⟩ := ih
      obtain ⟨a, -, hs⟩ := hm i
      exact ⟨_, _, run_snoc h1 hs, h2.append (hg i)⟩
  by_cases hx : ∃ i, ∀ t s, (f i).proxy ≠ .greeting t s
  · obtain ⟨i, hi⟩ := hx
    have later : ∀ k, ∀ t s, (f (i + k)).proxy ≠ .greeting t s := by
      intro k
      induction k with
      | zero => exact hi
      | succ k ih => exact (hm (i + k)).forward ih
    obtain ⟨as', R', h1, h2⟩ := reach i
    obtain ⟨gx, d, u, n1, n2, hl, -⟩ := laid hL hP hopt hO hc hv h1 h2
    exact hl.rest hL hb hbm hO hmax (f := fun k => f (i + k)) (g := fun k => g (i + k)) (fun k => hm (i + k))
      (fun k => hg (i + k)) (fun k t c s s' hq => absurd hq (later k t s))
  · obtain ⟨gx, d, u, n1, n2, hl, -⟩ := laid hL hP hopt hO hc hv h hr
    refine Laid.rest hL hb hbm hO hmax (f := f) (g := g) (h0 ▸ hl) hm hg ?_
    intro i t c s s' _ hq
    exact hx ⟨i + 1, fun t s he => by rw [hq] at he; cases he⟩

theorem _root_.ImapFlow.Proxy.step_client_possible {act : IoAct} {x : FullStream K Server × List (FullItem ServerError ServerEvent ServerOp)}
    (h : d.step (serverMachine L) act.toStream = some x) : ∃ y, (Proxy.conversation d u).step L gps (.client act) = some y := by
  simp only [Proxy.step, h]
  repeat' split
  all_goals exact ⟨_, rfl⟩

theorem _root_.ImapFlow.Proxy.step_server_possible {act : IoAct} {x : FullStream K Client × List (FullItem ClientError ClientEvent ClientOp)}
    (h : u.step (clientMachine L) act.toStream = some x) : ∃ y, (Proxy.conversation d u).step L gps (.server act) = some y := by
  simp only [Proxy.step, h]
  repeat' split
  all_goals exact ⟨_, rfl⟩

theorem _root_.ImapFlow.Proxy.step_greeting_possible {t : Option (Tls K)} {act : IoAct}
    {x : FullStream K Client × List (FullItem ClientError ClientEvent ClientOp)}
    (h : u.step (clientMachine L) act.toStream = some x) : ∃ y, (Proxy.greeting t u).step L gps (.server act) = some y := by
  simp only [Proxy.step, h]
  repeat' split
  all_goals exact ⟨_, rfl⟩

theorem _root_.ImapFlow.SideAct.polled {ι : Type} {act : SideAct ι} {wire : Bytes} (h : act.Internal wire)
    (hu : ∀ op, act ≠ .user op) : ∃ a : PollAct, a.Internal wire ∧ (a.toIo wire).toStream = act.toStream wire := by
  cases act with
  | user op => exact absurd rfl (hu op)
  | callNext => exact ⟨.poll, trivial, rfl⟩
  | read n => exact ⟨.read n, h, rfl⟩
  | write n => exact ⟨.write n, h, rfl⟩
  | _ => exact h.elim

/-- A system that is not at rest can move. -/
theorem possible (hL : L.Lawful) (hP : L.Proxyable) (hopt : proxyServerOptions L = .ok op) (hO : ServerOptions.Built L os)
    (hc : Handshaken paired tc tpc) (hv : Handshaken paired tps ts) {as : List RelayAct}
    (h : (Relay.new tc tpc tps ts gc oc gpc gs os gr).run L gps as = some (r, R)) (hr : RelayAccepted R)
    (hw : ¬ r.AtRest) : ∃ r' I, r.Moves L gps r' I := by
  obtain ⟨gx, d, u, n1, n2, hl, ⟨p1, p2⟩, p3, p4⟩ := laid hL hP hopt hO hc hv h hr
  have aC : ¬ (r.client.ctl = .at .reading ∧ r.proxyToClient = []) → ∃ r' I, r.Moves L gps r' I := by
    intro hn
    obtain ⟨act, h1, h2, ⟨c, V⟩, h3⟩ := FullStream.step_possible (clientMachine L) p1 hl.nearTracks.clientSound.alive hn
    obtain ⟨⟨q, J⟩, hs⟩ : ∃ x, r.clientStep L act = some x := by simp only [Relay.clientStep, h3]; exact ⟨_, rfl⟩
    refine ⟨q, J, .client act, h1, ?_⟩
    cases act with
    | user op => exact absurd rfl (h2 op)
    | _ => exact hs
  have aS : ¬ (r.server.ctl = .at .reading ∧ r.proxyToServer = []) → ∃ r' I, r.Moves L gps r' I := by
    intro hn
    obtain ⟨act, h1, h2, ⟨c, V⟩, h3⟩ := FullStream.step_possible (serverMachine L) p4 hl.farTracks.serverSound.alive hn
    obtain ⟨⟨q, J⟩, hs⟩ : ∃ x, r.serverStep L act = some x := by simp only [Relay.serverStep, h3]; exact ⟨_, rfl⟩
    refine ⟨q, J, .server act, h1, ?_⟩
    cases act with
    | user op => exact absurd rfl (h2 op)
    | _ => exact hs
  have aPC : r.proxy = .conversation d u → ¬ (d.ctl = .at .reading ∧ r.clientToProxy = []) →
      ∃ r' I, r.Moves L gps r' I := by
    intro hq hn
    obtain ⟨act, h1, h2, x, h3⟩ := FullStream.step_possible (serverMachine L) p2 hl.nearTracks.serverSound.alive hn
    obtain ⟨a, h4, h5⟩ := SideAct.polled h1 h2
    rw [← h5] at h3
    obtain ⟨⟨p, J⟩, h6⟩ := Proxy.step_client_possible (u := u) (gps := gps) h3
    exact ⟨_, _, .proxyClient a, h4, by simp only [step, hq, h6]; rfl⟩
  have aPS : (r.proxy = .conversation d u ∨ ∃ t, r.proxy = .greeting t u) →
      ¬ (u.ctl = .at .reading ∧ r.serverToProxy = []) → ∃ r' I, r.Moves L gps r' I := by
    intro hq hn
    obtain ⟨act, h1, h2, x, h3⟩ := FullStream.step_possible (clientMachine L) p3 hl.farTracks.clientSound.alive hn
    obtain ⟨a, h4, h5⟩ := SideAct.polled h1 h2
    rw [← h5] at h3
    rcases hq with hq | ⟨t, hq⟩
    · obtain ⟨⟨p, J⟩, h6⟩ := Proxy.step_server_possible (d := d) (gps := gps) h3
      exact ⟨_, _, .proxyServer a, h4, by simp only [step, hq, h6]; rfl⟩
    · obtain ⟨⟨p, J⟩, h6⟩ := Proxy.step_greeting_possible (t := t) (gps := gps) h3
      exact ⟨_, _, .proxyServer a, h4, by simp only [step, hq, h6]; rfl⟩
  by_cases w1 : r.client.ctl = .at .reading ∧ r.proxyToClient = []
  · by_cases w2 : r.server.ctl = .at .reading ∧ r.proxyToServer = []
    · rcases hl.proxy with ⟨t, hq⟩ | hq | hq
      · exact aPS (.inr ⟨t, hq⟩) fun w => hw ⟨w1, w2, by rw [hq]; exact w⟩
      · by_cases w3 : d.ctl = .at .reading ∧ r.clientToProxy = []
        · exact aPS (.inl hq) fun w => hw ⟨w1, w2, by rw [hq]; exact ⟨w3, w⟩⟩
        · exact aPC hq w3
      · refine absurd ⟨w1, w2, ?_⟩ hw
        cases hx : r.proxy <;> rw [hx] at hq <;> first | exact hq.elim | trivial
    · exact aS w2
  · exact aC w1

end Relay

end ImapFlow
