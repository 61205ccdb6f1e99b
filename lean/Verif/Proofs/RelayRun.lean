import Verif.Proofs.RelayBound

/-!
# Whole runs through the proxy
-/

namespace ImapFlow

variable {K : Type} {paired : K → K → Prop} {L : Lib} {tc tpc tps ts : Option (Tls K)} {gc gpc gps gs : HandleGenerator}
  {oc : ClientOptions} {op os : ServerOptions} {gr : Greeting} {r r' : Relay K} {R I : List RelayItem}
  {T1 T2 : List NItem} {d : FullStream K Server} {u : FullStream K Client}

theorem Client.trace_split {c c' c1 : Client} {ops ops' : List ClientOp} {A U : List CItem}
    (h : c.trace L (ops ++ ops') = .ok (c', A)) (h1 : c.trace L ops = .ok (c1, U)) : ∃ U', A = U ++ U' := by
  rw [Client.trace_append, h1] at h
  simp only at h
  cases h2 : c1.trace L ops' with
  | error p => rw [h2] at h; cases h
  | ok x => rw [h2] at h; cases h; exact ⟨_, rfl⟩

theorem Server.trace_split {c c' c1 : Server} {ops ops' : List ServerOp} {A U : List SItem}
    (h : c.trace L (ops ++ ops') = .ok (c', A)) (h1 : c.trace L ops = .ok (c1, U)) : ∃ U', A = U ++ U' := by
  rw [Server.trace_append, h1] at h
  simp only at h
  cases h2 : c1.trace L ops' with
  | error p => rw [h2] at h; cases h
  | ok x => rw [h2] at h; cases h; exact ⟨_, rfl⟩

theorem Relay.Bound.start (hc : Handshaken paired tc tpc) (hv : Handshaken paired tps ts) {A : List CItem} {S : List SItem}
    (hU : RelayUsers L oc .default op os gr A S) :
    Relay.Bound L paired tpc gc gpc gps gs oc op os gr (Relay.new tc tpc tps ts gc oc gpc gs os gr) [] [] []
      (.new tpc (Server.new gps op gr.restrict)) (.new tps (Client.new gpc .default)) := by
  have hU : RelayUsers L oc .default op os gr ([] ++ A) ([] ++ S) := hU
  refine ⟨⟨[], _, rfl, ?_⟩, ⟨[], _, rfl, ?_⟩, .inl rfl, fun _ => ⟨rfl, rfl, fun i hi => by cases hi⟩, fun _ => nofun,
    ?_, ?_, ?_, ?_, ?_, ?_, ?_, ?_, ?_, fun _ he => (by cases he), fun _ he => (by cases he)⟩
  · have := StreamNet.new_tracks hc gc gps oc op gr.restrict
    simpa only [StreamNet.new, Relay.new, FullStream.new_eq] using this
  · have := StreamNet.new_tracks hv gpc gs .default os gr
    simpa only [StreamNet.new, Relay.new, FullStream.new_eq] using this
  · simp only [Relay.new, FullStream.new_eq]; rfl
  · simp only [Relay.new, FullStream.new_eq]; rfl
  · exact ⟨rfl, rfl, rfl, fun _ => rfl, fun S0 h => by cases S0 <;> cases h⟩
  · exact ⟨rfl, rfl, rfl, rfl, fun _ => rfl, fun S0 h => (by cases S0 <;> cases h), rfl⟩
  · exact ⟨hU.orderly.prefix, fun hd r hm => by
      simp only [serverMessages, serverItems] at hm
      simp at hm, hU.far.before, Coupled.start⟩
  all_goals
    simp only [Relay.new, FullStream.new_eq]
    intro h
    cases h

theorem Relay.Bound.step (hP : L.Proxyable) (hopt : proxyServerOptions L = .ok op) (hs : RelaySetup L op os)
    (h : Relay.Bound L paired tpc gc gpc gps gs oc op os gr r R T1 T2 d u)
    (hU : RelayUsers L oc .default op os gr (clientItems T1) (serverItems T2)) {a : RelayAct}
    (hst : r.step L gps a = some (r', I)) (hr : RelayAccepted I) :
    ∃ T1' T2' d' u', Relay.Bound L paired tpc gc gpc gps gs oc op os gr r' (R ++ I) T1' T2' d' u' := by
  obtain ⟨r1, r2, r3, r4⟩ := hr
  cases a with
  | client act =>
    by_cases ha : act ≠ .user .next ∧ ∀ b, act ≠ .user (.enqueueInput b)
    · have hst' : r.clientStep L act = some (r', I) := by
        rw [← hst]
        cases act with
        | user o => cases o <;> first | rfl | exact absurd rfl ha.1 | exact absurd rfl (ha.2 _)
        | _ => rfl
      obtain ⟨U, hb⟩ := h.clientStep hs ha hst' r1
      exact ⟨_, _, _, _, hb⟩
    · cases act with
      | user o =>
        cases o <;> first | (cases hst; done) | exact absurd ⟨fun h => (by cases h), fun b h => (by cases h)⟩ ha
      | _ => exact absurd ⟨fun h => (by cases h), fun b h => (by cases h)⟩ ha
  | server act =>
    by_cases ha : act ≠ .user .next ∧ ∀ b, act ≠ .user (.enqueueInput b)
    · have hst' : r.serverStep L act = some (r', I) := by
        rw [← hst]
        cases act with
        | user o => cases o <;> first | rfl | exact absurd rfl ha.1 | exact absurd rfl (ha.2 _)
        | _ => rfl
      obtain ⟨U, hb⟩ := h.serverStep hs ha hst' r2
      exact ⟨_, _, _, _, hb⟩
    · cases act with
      | user o =>
        cases o <;> first | (cases hst; done) | exact absurd ⟨fun h => (by cases h), fun b h => (by cases h)⟩ ha
      | _ => exact absurd ⟨fun h => (by cases h), fun b h => (by cases h)⟩ ha
  | proxyClient act => exact h.proxyClient hs hU hst r3
  | proxyServer act => exact h.proxyServer hP hopt hs hU hst r4

theorem Relay.Bound.run (hP : L.Proxyable) (hopt : proxyServerOptions L = .ok op) (hs : RelaySetup L op os) {as : List RelayAct}
    (h : Relay.Bound L paired tpc gc gpc gps gs oc op os gr r R T1 T2 d u)
    {c : Client} {s : Server} {A : List CItem} {S : List SItem}
    (hA : (Client.new gc oc).trace L (clientOps (streamPart (relayClient (R ++ I)))) = .ok (c, A))
    (hS : (Server.new gs os gr).trace L (serverOps (streamPart (relayServer (R ++ I)))) = .ok (s, S))
    (hU : RelayUsers L oc .default op os gr A S)
    (hst : r.run L gps as = some (r', I)) (hr : RelayAccepted I) :
    ∃ T1' T2' d' u', Relay.Bound L paired tpc gc gpc gps gs oc op os gr r' (R ++ I) T1' T2' d' u' := by
  induction as generalizing r R I T1 T2 d u with
  | nil => cases hst; rw [List.append_nil]; exact ⟨_, _, _, _, h⟩
  | cons a as ih =>
    simp only [Relay.run] at hst
    cases h1 : r.step L gps a with
    | none => rw [h1] at hst; cases hst
    | some x =>
      obtain ⟨q, J⟩ := x
      rw [h1] at hst
      simp only at hst
      cases h2 : q.run L gps as with
      | none => rw [h2] at hst; cases hst
      | some y =>
        obtain ⟨q', J'⟩ := y
        rw [h2] at hst
        cases hst
        have hU' : RelayUsers L oc .default op os gr (clientItems T1) (serverItems T2) := by
          have hA' := hA
          have hS' := hS
          rw [relayClient_append, streamPart_append, clientOps_append] at hA'
          rw [relayServer_append, streamPart_append, serverOps_append] at hS'
          obtain ⟨A', rfl⟩ := Client.trace_split hA' h.clientTrace
          obtain ⟨S', rfl⟩ := Server.trace_split hS' h.serverTrace
          exact hU.before
        obtain ⟨r1, r2, r3, r4⟩ := hr
        simp only [List.mem_append, not_or] at r1 r2 r3 r4
        obtain ⟨_, _, _, _, hb⟩ := h.step hP hopt hs hU' h1 ⟨r1.1, r2.1, r3.1, r4.1⟩
        rw [← List.append_assoc] at hA hS ⊢
        exact ih hb hA hS h2 ⟨r1.2, r2.2, r3.2, r4.2⟩

/-- A run through the proxy from the beginning, as runs of the two connections. -/
theorem Relay.bound (hL : L.Lawful) (hP : L.Proxyable) (hopt : proxyServerOptions L = .ok op) (hO : ServerOptions.Built L os)
    (hmax : 0 < os.maxCommandSize) (hc : Handshaken paired tc tpc) (hv : Handshaken paired tps ts) {as : List RelayAct}
    (h : (Relay.new tc tpc tps ts gc oc gpc gs os gr).run L gps as = some (r, R)) (hr : RelayAccepted R)
    {c : Client} {s : Server} {A : List CItem} {S : List SItem}
    (hA : (Client.new gc oc).trace L (clientOps (streamPart (relayClient R))) = .ok (c, A))
    (hS : (Server.new gs os gr).trace L (serverOps (streamPart (relayServer R))) = .ok (s, S))
    (hU : RelayUsers L oc .default op os gr A S) :
    RelaySetup L op os ∧ ∃ T1 T2 d u, Relay.Bound L paired tpc gc gpc gps gs oc op os gr r R T1 T2 d u ∧
      clientItems T1 = A ∧ serverItems T2 = S := by
  have hs : RelaySetup L op os :=
    ⟨hL, proxyServerOptions_built hL hP hopt, proxyServerOptions_max hopt, hO, hmax⟩
  obtain ⟨T1, T2, d, u, hb⟩ := (Relay.Bound.start hc hv hU).run (gpc := gpc) hP hopt hs hA hS hU h hr
  refine ⟨hs, T1, T2, d, u, hb, ?_, ?_⟩
  · have := hb.clientTrace
    rw [List.nil_append, hA] at this
    injection this with this
    exact (congrArg Prod.snd this).symm
  · have := hb.serverTrace
    rw [List.nil_append, hS] at this
    injection this with this
    exact (congrArg Prod.snd this).symm

end ImapFlow
