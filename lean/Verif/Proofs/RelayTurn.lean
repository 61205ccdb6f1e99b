import Verif.Proofs.RelayRun
import Verif.Proofs.StreamDialogue

/-!
# Both ends of a dialogue through the proxy
-/

namespace ImapFlow

variable {L : Lib} {V : List SItem} {U : List CItem}

/-- The command that the client of the proxy is busy with while nothing moves. -/
theorem Turn.busy {v : ClientView} {p : ServerPhase} {d : ServerDialogue} (hn : Now L v) (h : Turn v p d) :
    (v.remaining = [] ∧ p = .command ∧ d.running = none) ∨
    ∃ x q, v.current = some x ∧ v.remaining = x :: q ∧ d.running = some x.2.tag ∧
      ¬ (x.2.isRegular = true ∨ (x.2.isIdle = true ∧ v.doneSet = true)) := by
  have head : ∀ {x}, v.current = some x → ∃ q, v.remaining = x :: q := by
    intro x hx
    unfold ClientView.current at hx
    split at hx
    · cases hx
    · cases hq : v.remaining with
      | nil => rw [hq] at hx; cases hx
      | cons y q => rw [hq] at hx; cases hx; exact ⟨q, rfl⟩
  have auth : ∀ {c : Command}, c.isAuthenticate = true → ¬ (c.isRegular = true ∨ (c.isIdle = true ∧ v.doneSet = true)) := by
    rintro ⟨t, b⟩ hc (h | ⟨h, -⟩) <;> cases b <;> simp_all [Command.isRegular, Command.isIdle, Command.isAuthenticate]
  have idle : ∀ {c : Command}, c.isIdle = true → v.doneSet = false →
      ¬ (c.isRegular = true ∨ (c.isIdle = true ∧ v.doneSet = true)) := by
    rintro c hc hd (h | ⟨-, h⟩)
    · rw [(isIdle_not hc).1] at h; cases h
    · rw [hd] at h; cases h
  cases h with
  | idle h1 h2 h3 h4 => exact .inl ⟨h2, h3, h4⟩
  | authenticateServer h c h1 h2 h3 h4 => obtain ⟨q, hq⟩ := head h1; exact .inr ⟨_, q, h1, hq, h4, auth h2⟩
  | authenticateClient h c h1 h2 h3 h4 => obtain ⟨q, hq⟩ := head h1; exact .inr ⟨_, q, h1, hq, h4, auth h2⟩
  | idleServer h c h1 h2 h3 h4 h5 =>
    obtain ⟨q, hq⟩ := head h1
    refine .inr ⟨_, q, h1, hq, h4, idle h2 ?_⟩
    cases hd : v.doneSet with
    | false => rfl
    | true =>
      exfalso
      cases hn with
      | fresh hf => obtain ⟨hf, -⟩ := hf; simp [ClientView.current, hf] at h1
      | regular _ _ _ _ _ _ _ _ _ _ _ hx => rw [hd] at hx; cases hx
      | authenticate _ _ _ _ _ _ _ _ _ hx => rw [hd] at hx; cases hx
      | idle _ _ _ _ _ _ _ _ _ hx => rw [hx hd] at h5; cases h5
  | idleClient h c h1 h2 h3 h4 h5 h6 => obtain ⟨q, hq⟩ := head h1; exact .inr ⟨_, q, h1, hq, h4, idle h2 h6⟩

theorem Settled.none {doneSet : Bool} {x : RawHandle × Command} {q q' : List (RawHandle × Command)} {y : RawHandle × Command}
    (h : Settled doneSet q) (hq : x :: q' = q ++ [y]) (hx : ¬ (x.2.isRegular = true ∨ (x.2.isIdle = true ∧ doneSet = true))) :
    q = [] ∧ x = y := by
  cases q with
  | nil => cases hq; exact ⟨rfl, rfl⟩
  | cons z q => cases hq; exact absurd h.1 hx

/-- If both connections of the proxy stand still, the user of the client and the user of the server agree whose turn
it is. -/
theorem Turn.through (hc : Coupled V U) (hn : Now L (ClientView.of U)) {v : ClientView} {p : ServerPhase} {d : ServerDialogue}
    (h1 : Turn v (serverPhase V) (serverDialogue V)) (h2 : Turn (ClientView.of U) p d) : Turn v p d := by
  have hi := hc.inStep
  have hrun := hc.running
  have single : ∀ {q : List (RawHandle × Command)} {x}, (ClientView.of U).remaining = q ++ [x] →
      Settled (ClientView.of U).doneSet q → (ClientView.of U).current = some x ∧ d.running = some x.2.tag ∧ q = [] := by
    intro q x hq hs
    rcases h2.busy hn with ⟨h, -⟩ | ⟨y, q', h3, h4, h5, h6⟩
    · rw [h] at hq; cases q <;> cases hq
    · obtain ⟨rfl, rfl⟩ := hs.none (h4.symm.trans hq) h6
      exact ⟨h3, h5, rfl⟩
  cases h1 with
  | idle a1 a2 a3 a4 =>
    rw [a3] at hi
    rcases h2.busy hn with ⟨-, h4, h5⟩ | ⟨y, q', -, h4, -, h6⟩
    · exact .idle a1 a2 h4 h5
    · simp only [InStep, h4] at hi
      exact absurd hi.1 h6
  | authenticateServer h c a1 a2 a3 a4 a5 a6 =>
    have has := hc.asked a3
    rw [a3] at hi hrun
    obtain ⟨q, x, b1, b2, b3⟩ := hi
    obtain ⟨e1, e2, -⟩ := single b1 b2
    simp only [expectedTag, b1, List.getLast?_append, List.getLast?_singleton, Option.some_or, Option.map_some, a4,
      Option.some.injEq] at hrun
    rw [← hrun] at e2
    cases h2 with
    | idle c1 => rw [c1] at e1; cases e1
    | authenticateServer h' c' c1 c2 c3 c4 c5 c6 => exact .authenticateServer h c a1 a2 c3 e2 c5 a6
    | authenticateClient h' c' c1 c2 c3 c4 c5 c6 => omega
    | idleServer h' c' c1 c2 =>
      rw [c1] at e1; cases e1
      rw [(isIdle_not c2).2] at b3; cases b3
    | idleClient h' c' c1 c2 =>
      rw [c1] at e1; cases e1
      rw [(isIdle_not c2).2] at b3; cases b3
  | authenticateClient h c a1 a2 a3 a4 a5 a6 =>
    have has := hc.asked a3
    rw [a3] at hi hrun
    obtain ⟨q, x, b1, b2, b3⟩ := hi
    obtain ⟨e1, e2, -⟩ := single b1 b2
    simp only [expectedTag, b1, List.getLast?_append, List.getLast?_singleton, Option.some_or, Option.map_some, a4,
      Option.some.injEq] at hrun
    rw [← hrun] at e2
    cases h2 with
    | idle c1 => rw [c1] at e1; cases e1
    | authenticateServer h' c' c1 c2 c3 c4 c5 c6 => omega
    | authenticateClient h' c' c1 c2 c3 c4 c5 c6 => exact .authenticateClient h c a1 a2 c3 e2 c5 a6
    | idleServer h' c' c1 c2 =>
      rw [c1] at e1; cases e1
      rw [(isIdle_not c2).2] at b3; cases b3
    | idleClient h' c' c1 c2 =>
      rw [c1] at e1; cases e1
      rw [(isIdle_not c2).2] at b3; cases b3
  | idleServer h c a1 a2 a3 a4 a5 =>
    rw [a3] at hi hrun
    obtain ⟨q, x, b1, b2, b3, b4⟩ := hi
    obtain ⟨e1, e2, e3⟩ := single b1 b2
    simp only [expectedTag, b1, List.getLast?_append, List.getLast?_singleton, Option.some_or, Option.map_some, a4,
      Option.some.injEq] at hrun
    rw [← hrun] at e2
    cases h2 with
    | idle c1 => rw [c1] at e1; cases e1
    | authenticateServer h' c' c1 c2 c3 c4 c5 c6 =>
      rw [c1] at e1; cases e1
      rw [(isIdle_not b3).2] at c2; cases c2
    | authenticateClient h' c' c1 c2 c3 c4 c5 c6 =>
      rw [c1] at e1; cases e1
      rw [(isIdle_not b3).2] at c2; cases c2
    | idleServer h' c' c1 c2 c3 c4 c5 => exact .idleServer h c a1 a2 c3 e2 a5
    | idleClient h' c' c1 c2 c3 c4 c5 => rw [(b4 e3).1] at c5; cases c5
  | idleClient h c a1 a2 a3 a4 a5 a6 =>
    rw [a3] at hi hrun
    obtain ⟨x, b1, b3, b4, b5⟩ := hi
    obtain ⟨e1, e2, e3⟩ := single (q := []) b1 trivial
    simp only [expectedTag, b1, List.getLast?_singleton, Option.map_some, a4, Option.some.injEq] at hrun
    rw [← hrun] at e2
    cases h2 with
    | idle c1 => rw [c1] at e1; cases e1
    | authenticateServer h' c' c1 c2 c3 c4 c5 c6 =>
      rw [c1] at e1; cases e1
      rw [(isIdle_not b3).2] at c2; cases c2
    | authenticateClient h' c' c1 c2 c3 c4 c5 c6 =>
      rw [c1] at e1; cases e1
      rw [(isIdle_not b3).2] at c2; cases c2
    | idleServer h' c' c1 c2 c3 c4 c5 => rw [b4] at c5; cases c5
    | idleClient h' c' c1 c2 c3 c4 c5 => exact .idleClient h c a1 a2 c3 e2 a5 a6

/-- If both connections of the proxy stand still, the client of the proxy has said everything. -/
theorem Turn.said_fed (hc : Coupled V U) (hn : Now L (ClientView.of U)) {p : ServerPhase} {d : ServerDialogue}
    (h2 : Turn (ClientView.of U) p d) : (ClientView.of U).said = (ClientView.of U).fed := by
  have hi := hc.inStep
  unfold ClientView.fed
  rcases h2.busy hn with ⟨h, -⟩ | ⟨y, q', h3, h4, h5, h6⟩
  · have : (ClientView.of U).current = none := by simp [ClientView.current, h]
    rw [ClientView.said_none this, ClientView.due_nil h, List.append_nil]
  · have single : ∀ {q : List (RawHandle × Command)} {x}, (ClientView.of U).remaining = q ++ [x] →
        Settled (ClientView.of U).doneSet q → q' = [] := by
      intro q x hq hs
      obtain ⟨rfl, rfl⟩ := hs.none (h4.symm.trans hq) h6
      rw [h4] at hq
      cases hq
      rfl
    have hq' : q' = [] := by
      cases hp : serverPhase V <;> rw [hp] at hi <;> simp only [InStep] at hi
      · rw [h4] at hi; exact absurd hi.1 h6
      · obtain ⟨q, x, b1, b2, -⟩ := hi; exact single b1 b2
      · obtain ⟨q, x, b1, b2, -⟩ := hi; exact single b1 b2
      · obtain ⟨x, b1, -⟩ := hi; rw [h4] at b1; cases b1; rfl
    subst hq'
    rw [ClientView.said_some h3, ClientView.due_cons h4, List.map_nil, List.append_nil]

/-! ## Both ends -/

section

variable {K : Type} {paired : K → K → Prop} {tc tpc tps ts : Option (Tls K)} {gc gpc gps gs : HandleGenerator}
  {oc : ClientOptions} {op os : ServerOptions} {gr : Greeting} {r : Relay K} {R : List RelayItem} {as : List RelayAct}
  {c : Client} {s : Server} {A : List CItem} {S : List SItem}

/-- The events returned to the users. -/
theorem Relay.run_events (hL : L.Lawful) (hP : L.Proxyable) (hopt : proxyServerOptions L = .ok op)
    (h : (Relay.new tc tpc tps ts gc oc gpc gs os gr).run L gps as = some (r, R)) :
    events (streamPart (relayClient R)) = (streamPart (relayClient R)).filterMap (fun i => i.poll?.bind Except.toOption) ∧
    events (streamPart (relayServer R)) = (streamPart (relayServer R)).filterMap (fun i => i.poll?.bind Except.toOption) := by
  obtain ⟨g, c, s, G1, G2, -, c1, c2, -⟩ := Relay.connections hL hP hopt h
  obtain ⟨as1, h1⟩ := c1.run
  obtain ⟨as2, h2⟩ := c2.run
  rw [← c1.client.1, ← c2.server.1]
  exact ⟨(StreamNet.run_events h1).1, (StreamNet.run_events h2).2⟩

/-- Errors returned to the users come from the client and from the server. -/
theorem Relay.run_state_error (hL : L.Lawful) (hP : L.Proxyable) (hopt : proxyServerOptions L = .ok op)
    (h : (Relay.new tc tpc tps ts gc oc gpc gs os gr).run L gps as = some (r, R)) :
    (∀ e, .returned (.error (.state e)) ∈ streamPart (relayClient R) → .poll (.error (.error e)) ∈ streamPart (relayClient R)) ∧
    ∀ e, .returned (.error (.state e)) ∈ streamPart (relayServer R) → .poll (.error (.error e)) ∈ streamPart (relayServer R) := by
  obtain ⟨g, c, s, G1, G2, -, c1, c2, -⟩ := Relay.connections hL hP hopt h
  obtain ⟨as1, h1⟩ := c1.run
  obtain ⟨as2, h2⟩ := c2.run
  rw [← c1.client.1, ← c2.server.1, ← (StreamNet.clientPart_spec G1).1, ← (StreamNet.serverPart_spec G2).1]
  obtain ⟨⟨cs, p1⟩, -⟩ := StreamNet.run_parts h1
  obtain ⟨-, ss, p2⟩ := StreamNet.run_parts h2
  exact ⟨fun e => FullStream.run_state_error p1, fun e => FullStream.run_state_error p2⟩

theorem Client.events_answers (hL : L.Lawful) {ops : List ClientOp} (hA : (Client.new gc oc).trace L ops = .ok (c, A))
    {X : List (StreamItem ClientError ClientEvent ClientOp)} (hS : ClientRecord X A)
    (he : events X = X.filterMap fun i => i.poll?.bind Except.toOption) :
    (events X).filterMap ClientEvent.answer? = clientAnswers A := by
  have h1 : events X = (A.filterMap CItem.result?).filterMap Except.toOption := by
    rw [he, hS.results, List.filterMap_filterMap]
  unfold clientAnswers
  rw [h1, List.filterMap_filterMap, List.filterMap_filterMap]
  refine filterMap_congr' fun i hi => ?_
  obtain ⟨a, b, hab⟩ := List.append_of_mem hi
  rw [hab] at hA
  have hv := Client.trace_guard hL hA
  cases i with
  | sent e => obtain ⟨-, hd, cmd, q, -, ⟨rfl, -⟩ | ⟨rfl, -⟩ | ⟨rfl, -⟩ | ⟨rfl, -⟩⟩ := hv <;> rfl
  | received w e => cases e <;> rfl
  | _ => rfl

theorem Server.events_heard {ops : List ServerOp} (hS : (Server.new gs os gr).trace L ops = .ok (s, S))
    {X : List (StreamItem ServerError ServerEvent ServerOp)} (hX : ServerRecord X S)
    (he : events X = X.filterMap fun i => i.poll?.bind Except.toOption) :
    (events X).filterMap ServerEvent.heard? = serverHeard S := by
  have h1 : events X = (S.filterMap SItem.result?).filterMap Except.toOption := by
    rw [he, hX.results, List.filterMap_filterMap]
  unfold serverHeard
  rw [h1, List.filterMap_filterMap, List.filterMap_filterMap]
  refine filterMap_congr' fun i hi => ?_
  obtain ⟨a, b, hab⟩ := List.append_of_mem hi
  rw [hab] at hS
  have hv := Server.trace_guard hS
  cases i with
  | sent e =>
    obtain ⟨-, m, -, hm⟩ := hv
    cases m with
    | greeting g => cases hm; rfl
    | response hd r => cases hd <;> cases hm; rfl
  | received w e =>
    obtain ⟨-, -, -, ht, -⟩ := hv
    cases e with
    | greetingSent g => exact absurd ht (by unfold Taken; split <;> simp [command_event_ne])
    | responseSent hd r => exact absurd ht (by unfold Taken; split <;> simp [command_event_ne])
    | _ => rfl
  | _ => rfl

/-- Both ends of a run through the proxy: `V` is the trace of the server of the proxy, `U` that of its client. -/
structure Relay.Ends (L : Lib) (op os : ServerOptions) (gr : Greeting) (r : Relay K) (R : List RelayItem) (A : List CItem)
    (S : List SItem) (V : List SItem) (U : List CItem) : Prop where
  near : ∃ D fl, Together L op gr.restrict A V D fl
  far : ∃ D fl, Together L os gr U S D fl
  coupled : Coupled V U
  now : Now L (ClientView.of U)
  clientRecord : ClientRecord (streamPart (relayClient R)) A
  serverRecord : ServerRecord (streamPart (relayServer R)) S
  calm : ∀ p, .proxy (.panicked p) ∉ R
  alive : r.proxy ≠ .dead ∧ r.proxy ≠ .hung
  /-- at a standstill everything was delivered on both connections -/
  still : r.Waiting → serverHeard V = (ClientView.of A).said ∧ clientAnswers A = serverAnswers V ∧
    Turn (ClientView.of A) (serverPhase V) (serverDialogue V) ∧
    serverHeard S = (ClientView.of U).said ∧ clientAnswers U = serverAnswers S ∧
    Turn (ClientView.of U) (serverPhase S) (serverDialogue S)

theorem CParked.starved (hL : L.Lawful) {st : FullStream K Client} (h : CParked st A) (hc : st.ctl = .at .reading)
    {ops : List ClientOp} (hA : (Client.new gc oc).trace L ops = .ok (c, A)) : ∃ B, A = B ++ [.starved] := by
  refine (h hc).resolve_right fun hm => ?_
  obtain ⟨a, b, hab⟩ := List.append_of_mem hm
  rw [hab] at hA
  exact (Client.trace_guard hL hA).2.1 rfl

theorem SParked.starved {n : Net} {T : List NItem} (hl : Net.Linked L gc oc gs os gr n T)
    (hrt : ∀ m ∈ serverMessages gr (serverItems T), m.RoundTrip L oc) {st : FullStream K Server}
    (h : SParked st (serverItems T)) (hc : st.ctl = .at .reading) : ∃ B, serverItems T = B ++ [.starved] :=
  (h hc).resolve_right fun hm => hl.server_output hrt hm rfl

theorem Relay.ends (hL : L.Lawful) (hP : L.Proxyable) (hopt : proxyServerOptions L = .ok op) (hO : ServerOptions.Built L os)
    (hmax : 0 < os.maxCommandSize) (hc : Handshaken paired tc tpc) (hv : Handshaken paired tps ts)
    (h : (Relay.new tc tpc tps ts gc oc gpc gs os gr).run L gps as = some (r, R)) (hr : RelayAccepted R)
    (hA : (Client.new gc oc).trace L (clientOps (streamPart (relayClient R))) = .ok (c, A))
    (hS : (Server.new gs os gr).trace L (serverOps (streamPart (relayServer R))) = .ok (s, S))
    (hU : RelayUsers L oc .default op os gr A S) : ∃ V U, Relay.Ends L op os gr r R A S V U := by
  obtain ⟨hs, T1, T2, d, u, hb, rfl, rfl⟩ := Relay.bound hL hP hopt hO hmax hc hv h hr hA hS hU
  obtain ⟨ops1, n1, h1, t1⟩ := hb.near
  obtain ⟨ops2, n2, h2, t2⟩ := hb.far
  have l1 := Net.run_linked h1
  have l2 := Net.run_linked h2
  have hrt1 := Net.Linked.understood hs.lawful hs.builtNear hs.sizeNear h1 (hU.clearNear hb.good.borrowed) hU.near hb.good.orderly
  have hrt2 := Net.Linked.understood hs.lawful hs.builtFar hs.sizeFar h2 hU.clearFar hb.good.fair hU.orderly
  refine ⟨serverItems T1, clientItems T2, hU.near_together hs hb.good.orderly hb.good.borrowed h1 (P := T1) (Q := []) (by simp),
    hU.far_together hs hb.good.fair h2 (P := T2) (Q := []) (by simp), hb.good.coupled, ?_, hb.clientRecord, hb.serverRecord,
    hb.calm, ?_, ?_⟩
  · obtain ⟨cops, hct⟩ := l2.client
    exact Client.now (T2 := []) hL (by simpa using hct)
  · rcases hb.proxy with e | e | e <;> rw [e] <;> exact ⟨nofun, nofun⟩
  · rintro ⟨⟨w1, w2, w3, w4⟩, w5, w6, d', u', w7, w8, w9⟩
    obtain ⟨rfl, rfl⟩ : d = d' ∧ u = u' := by
      rcases hb.proxy with e | e | e <;> rw [e] at w7 <;> cases w7
      exact ⟨rfl, rfl⟩
    obtain ⟨cops1, hct1⟩ := l1.client
    obtain ⟨cops2, hct2⟩ := l2.client
    obtain ⟨B1, e1⟩ := hb.clientParked.starved hL w5 hct1
    obtain ⟨B2, e2⟩ := hb.nearParked.starved l1 hrt1 w8
    obtain ⟨B3, e3⟩ := hb.farParked.starved hL w9 hct2
    obtain ⟨B4, e4⟩ := hb.serverParked.starved l2 hrt2 w6
    have z1 : n1.toServer = [] := by
      have := t1.toServer
      dsimp only at this
      rw [w1, t1.clientSound.reading w5] at this
      exact this.empty
    have z2 : n1.toClient = [] := by
      have := t1.toClient
      dsimp only at this
      rw [w2, t1.serverSound.reading w8] at this
      exact this.empty
    have z3 : n2.toServer = [] := by
      have := t2.toServer
      dsimp only at this
      rw [w3, t2.clientSound.reading w9] at this
      exact this.empty
    have z4 : n2.toClient = [] := by
      have := t2.toClient
      dsimp only at this
      rw [w4, t2.serverSound.reading w6] at this
      exact this.empty
    obtain ⟨x1, x2, x3⟩ := l1.turn_starved hL hs.builtNear hrt1 hs.sizeNear hU.near hb.good.orderly e1 e2 z1 z2
    obtain ⟨y1, y2, y3⟩ := l2.turn_starved hL hs.builtFar hrt2 hs.sizeFar hb.good.fair hU.orderly e3 e4 z3 z4
    exact ⟨x1, x2, x3, y1, y2, y3⟩

end

end ImapFlow
