import Verif.Proofs.Rest
import Verif.Proofs.DialogueStuck
import Verif.Spec.Calls

/-!
# What was delivered when client and server are at rest
-/

namespace ImapFlow

variable {L : Lib} {gc gs : HandleGenerator} {oc : ClientOptions} {os : ServerOptions} {gr : Greeting}
  {n n' : Net} {T U : List NItem} {ops : List NetOp}

/-! ## Steps without users -/

theorem Client.nextTrace_automatic {c c' : Client} {V : List CItem} (h : c.nextTrace L = .ok (c', V)) :
    ∀ i ∈ V, i.Automatic := by
  obtain ⟨ws, i, rfl, h1, -⟩ := Client.nextTrace_shape h
  intro j hj
  rcases List.mem_append.mp hj with hj | hj
  · obtain ⟨w, -, rfl⟩ := List.mem_map.mp hj
    trivial
  · rw [List.mem_singleton] at hj
    subst hj
    cases j <;> first | trivial | (simp [CItem.isNext] at h1)

theorem Server.nextTrace_automatic {s s' : Server} {V : List SItem} (h : s.nextTrace L = .ok (s', V)) :
    ∀ i ∈ V, i.Automatic := by
  have hq : ∀ s : Server, ∀ i ∈ quietItems s, i.Automatic := by
    intro s i hi
    unfold quietItems at hi
    split at hi
    · rw [List.mem_singleton.mp hi]; trivial
    · cases hi
  have one : ∀ (s : Server) (i : SItem), i.Automatic → ∀ j ∈ quietItems s ++ [i], j.Automatic := by
    intro s i hi j hj
    rcases List.mem_append.mp hj with hj | hj
    · exact hq s j hj
    · rw [List.mem_singleton.mp hj]; exact hi
  have single : ∀ i : SItem, i.Automatic → ∀ j ∈ [i], j.Automatic := by
    intro i hi j hj
    rw [List.mem_singleton.mp hj]; exact hi
  fun_induction Server.nextTrace L s generalizing V s' with
  | case11 s s1 hs s2 hr s3 items hn ih =>
    cases h
    intro j hj
    rcases List.mem_append.mp hj with hj | hj
    · exact hq s j hj
    · rcases List.mem_cons.mp hj with rfl | hj
      · trivial
      · exact ih hn j hj
  | _ => first | (cases h; done) | (cases h; exact one _ _ trivial) | (cases h; exact single _ trivial)

namespace Net

theorem step_automatic {op : NetOp} (hop : op.Internal) (h : n.step L op = .ok (n', U)) :
    (∀ i ∈ clientItems U, i.Automatic) ∧ ∀ i ∈ serverItems U, i.Automatic := by
  have hc : ∀ {V : List CItem}, (∀ i ∈ V, i.Automatic) →
      (∀ i ∈ clientItems (V.map NItem.client), i.Automatic) ∧ ∀ i ∈ serverItems (V.map NItem.client), i.Automatic := by
    intro V hV
    rw [clientItems_map_client, serverItems_map_client]
    exact ⟨hV, fun i hi => absurd hi (List.not_mem_nil (a := i))⟩
  have hs : ∀ {V : List SItem}, (∀ i ∈ V, i.Automatic) →
      (∀ i ∈ clientItems (V.map NItem.server), i.Automatic) ∧ ∀ i ∈ serverItems (V.map NItem.server), i.Automatic := by
    intro V hV
    rw [clientItems_map_server, serverItems_map_server]
    exact ⟨fun i hi => absurd hi (List.not_mem_nil (a := i)), hV⟩
  cases op with
  | client op =>
    cases op with
    | next =>
      simp only [Net.step, Net.callClient, Client.callTrace] at h
      cases hx : n.client.nextTrace L with
      | error p => rw [hx] at h; cases h
      | ok x => rw [hx] at h; cases h; exact hc (Client.nextTrace_automatic hx)
    | _ => exact hop.elim
  | server op =>
    cases op with
    | next =>
      simp only [Net.step, Net.callServer, Server.callTrace] at h
      cases hx : n.server.nextTrace L with
      | error p => rw [hx] at h; cases h
      | ok x => rw [hx] at h; cases h; exact hs (Server.nextTrace_automatic hx)
    | _ => exact hop.elim
  | deliverToClient k =>
    simp only [Net.step, Net.callClient, Client.callTrace] at h
    cases hx : n.client.enqueueInput (n.toClient.take k) with
    | error p => rw [hx] at h; cases h
    | ok x =>
      rw [hx] at h; cases h
      exact hc fun i hi => by rw [List.mem_singleton.mp hi]; trivial
  | deliverToServer k =>
    simp only [Net.step, Net.callServer, Server.callTrace] at h
    cases hx : n.server.enqueueInput (n.toServer.take k) with
    | error p => rw [hx] at h; cases h
    | ok x =>
      rw [hx] at h; cases h
      exact hs fun i hi => by rw [List.mem_singleton.mp hi]; trivial

/-- Only one of the two sides takes part in a step. -/
theorem step_side {op : NetOp} (h : n.step L op = .ok (n', U)) :
    (∃ V : List CItem, U = V.map .client) ∨ ∃ V : List SItem, U = V.map .server := by
  have hc : ∀ {n1 : Net} {op}, n1.callClient L op = .ok (n', U) → ∃ V : List CItem, U = V.map .client := by
    intro n1 op h
    unfold Net.callClient at h
    split at h
    · cases h
    · cases h; exact ⟨_, rfl⟩
  have hs : ∀ {n1 : Net} {op}, n1.callServer L op = .ok (n', U) → ∃ V : List SItem, U = V.map .server := by
    intro n1 op h
    unfold Net.callServer at h
    split at h
    · cases h
    · cases h; exact ⟨_, rfl⟩
  unfold Net.step at h
  split at h
  · cases h; exact .inl ⟨[], rfl⟩
  · cases h; exact .inl ⟨[], rfl⟩
  · exact .inl (hc h)
  · exact .inr (hs h)
  · exact .inl (hc h)
  · exact .inr (hs h)

theorem run_automatic (hop : ∀ op ∈ ops, op.Internal) (h : n.run L ops = .ok (n', U)) :
    (∀ i ∈ clientItems U, i.Automatic) ∧ ∀ i ∈ serverItems U, i.Automatic := by
  induction ops generalizing n U with
  | nil => cases h; exact ⟨fun i hi => absurd hi (List.not_mem_nil (a := i)), fun i hi => absurd hi (List.not_mem_nil (a := i))⟩
  | cons op ops ih =>
    simp only [Net.run] at h
    cases h1 : n.step L op with
    | error p => rw [h1] at h; cases h
    | ok x =>
      obtain ⟨n1, U1⟩ := x
      rw [h1] at h
      simp only at h
      cases h2 : n1.run L ops with
      | error p => rw [h2] at h; cases h
      | ok y =>
        obtain ⟨n2, U2⟩ := y
        rw [h2] at h
        cases h
        obtain ⟨a1, a2⟩ := step_automatic (hop _ (by simp)) h1
        obtain ⟨b1, b2⟩ := ih (fun op ho => hop op (by simp [ho])) h2
        rw [clientItems_append, serverItems_append]
        exact ⟨fun i hi => (List.mem_append.mp hi).elim (a1 i) (b1 i), fun i hi => (List.mem_append.mp hi).elim (a2 i) (b2 i)⟩

end Net

theorem firstSteps_internal {σ : Nat → NetOp} (h : FairSchedule σ) (k : Nat) : ∀ op ∈ firstSteps σ k, op.Internal := by
  intro op ho
  obtain ⟨j, -, rfl⟩ := List.mem_map.mp ho
  exact h.internal j

theorem clientEnqueued_automatic {A V : List CItem} (h : ∀ i ∈ V, i.Automatic) : clientEnqueued (A ++ V) = clientEnqueued A := by
  have : clientEnqueued V = [] := by
    unfold clientEnqueued
    rw [List.flatMap_eq_nil_iff]
    intro i hi
    have := h i hi
    cases i <;> first | rfl | exact this.elim
  unfold clientEnqueued at *
  rw [List.flatMap_append, this, List.append_nil]

theorem FairClient.automatic {A V : List CItem} (hF : FairClient L os A) (h : ∀ i ∈ V, i.Automatic) :
    FairClient L os (A ++ V) := by
  have hd : (A ++ V).filterMap CItem.data? = A.filterMap CItem.data? := by
    rw [List.filterMap_append]
    have : V.filterMap CItem.data? = [] := by
      rw [List.filterMap_eq_nil_iff]
      intro i hi
      have := h i hi
      cases i <;> first | rfl | exact this.elim
    rw [this, List.append_nil]
  exact ⟨by rw [clientEnqueued_automatic h]; exact hF.commands, by rw [hd]; exact hF.datas, hF.done⟩

theorem FairClient.before {A A' : List CItem} (hF : FairClient L os (A ++ A')) : FairClient L os A := by
  obtain ⟨⟨a, b, c⟩, d, e⟩ := hF
  have h1 : clientEnqueued (A ++ A') = clientEnqueued A ++ clientEnqueued A' := by simp [clientEnqueued]
  rw [h1] at a b c
  rw [List.filterMap_append] at d
  refine ⟨⟨fun x hx => a x (List.mem_append_left _ hx), fun x hx => b x (List.mem_append_left _ hx), ?_⟩,
    fun x hx => d x (List.mem_append_left _ hx), e⟩
  rw [List.map_append] at c
  exact (List.nodup_append.mp c).1

theorem OrderlyServer.automatic {S V : List SItem} (hP : OrderlyServer S) (h : ∀ i ∈ V, i.Automatic) :
    OrderlyServer (S ++ V) := by
  intro S1 i S2 hS
  rcases List.append_eq_append_iff.mp hS with ⟨a, rfl, h2⟩ | ⟨a, rfl, h2⟩
  · have := h i (by rw [h2]; simp)
    cases i <;> first | trivial | exact this.elim
  · cases a with
    | nil =>
      have := h i (by rw [List.nil_append] at h2; rw [← h2]; simp)
      cases i <;> first | trivial | exact this.elim
    | cons x a =>
      simp only [List.cons_append, List.cons.injEq] at h2
      obtain ⟨rfl, rfl⟩ := h2
      exact hP S1 i a rfl

theorem ClearServer.before {S V : List SItem} (h : ClearServer L oc os gr (S ++ V)) : ClearServer L oc os gr S :=
  ⟨h.greeting, fun hd r hm => h.user hd r (by rw [serverMessages_append]; exact List.mem_append_left _ hm), h.accepts⟩

/-- Without failures, all messages of the server are understood. -/
theorem ClearServer.all {S V : List SItem} (h : ClearServer L oc os gr S) {sops : List ServerOp} {s : Server}
    (hst : (Server.new gs os gr).trace L sops = .ok (s, S ++ V)) (hf : ∀ e rs, .failed e rs ∉ S) :
    ∀ m ∈ serverMessages gr S, m.RoundTrip L oc := by
  intro m hm
  have hm' := hm
  unfold serverMessages at hm
  rcases List.mem_cons.mp hm with rfl | hm
  · exact h.greeting
  · obtain ⟨i, hi, hmi⟩ := List.mem_flatMap.mp hm
    have user : ∀ hd r, m = .response (some hd) r → m.RoundTrip L oc := by
      rintro hd r rfl
      exact h.user hd r hm'
    cases i with
    | enqueue hd r => rw [List.mem_singleton.mp hmi]; exact h.user _ _ (List.mem_singleton.mp hmi ▸ hm')
    | authContinue q r => cases r with
      | ok hd => exact user _ _ (List.mem_singleton.mp hmi)
      | error _ => exact absurd hmi (List.not_mem_nil (a := m))
    | authFinish q r => cases r with
      | ok hd => exact user _ _ (List.mem_singleton.mp hmi)
      | error _ => exact absurd hmi (List.not_mem_nil (a := m))
    | idleAccept q r => cases r with
      | ok hd => exact user _ _ (List.mem_singleton.mp hmi)
      | error _ => exact absurd hmi (List.not_mem_nil (a := m))
    | idleReject q r => cases r with
      | ok hd => exact user _ _ (List.mem_singleton.mp hmi)
      | error _ => exact absurd hmi (List.not_mem_nil (a := m))
    | failed e rs => exact absurd hi (hf e rs)
    | literal p rs =>
      obtain ⟨S1, S2, rfl⟩ := List.append_of_mem hi
      rw [List.append_assoc, List.cons_append] at hst
      obtain ⟨-, -, -, -, -, tag, k, mode, -, -, rfl⟩ := Server.trace_guard hst
      exact h.accepts mode m hmi
    | _ => exact absurd hmi (List.not_mem_nil (a := m))

/-! ## All messages of the server are understood -/

theorem Together.serverRun {A : List CItem} {S V W : List SItem} {D : List ServerEvent} {fl : Option Underway}
    {cops : List ClientOp} {c : Client} {sops : List ServerOp} {s : Server}
    (h : Together L os gr A S D fl) (hL : L.Lawful) (hO : ServerOptions.Built L os) (hmax : 0 < os.maxCommandSize)
    (hF : FairClient L os A) (hct : (Client.new gc oc).trace L cops = .ok (c, A))
    (hst : (Server.new gs os gr).trace L sops = .ok (s, S ++ V ++ W)) (hP : OrderlyServer (S ++ V ++ W))
    (hlen : (clientDecoded L A).length ≤ (serverMessages gr S).length)
    (hg : ∀ V1 V2, V = V1 ++ V2 → serverGiven (S ++ V1) <+: clientOutput A) : ∃ D' fl', Together L os gr A (S ++ V) D' fl' := by
  induction V using snocInduction generalizing W with
  | nil => exact ⟨D, fl, by simpa using h⟩
  | snoc V i ih =>
    have e : S ++ (V ++ [i]) ++ W = S ++ V ++ i :: W := by simp
    rw [e] at hst hP
    obtain ⟨D1, fl1, IH⟩ := ih hst hP fun V1 V2 hV => hg V1 (V2 ++ [i]) (by rw [hV]; simp)
    have hct' : (Client.new gc oc).trace L cops = .ok (c, A ++ []) := by simpa using hct
    have hF' : FairClient L os (A ++ []) := by simpa using hF
    have := IH.server (Client.now hL hct') hL hO hmax hF' hst hP (by
      rw [serverMessages_append, List.length_append]; omega) (hg V [i] rfl)
    rwa [List.append_assoc] at this

theorem Net.Linked.understood (hL : L.Lawful) (hO : ServerOptions.Built L os) (hmax : 0 < os.maxCommandSize)
    (h : (Net.new gc oc gs os gr).run L ops = .ok (n, T)) (hC : ClearServer L oc os gr (serverItems T))
    (hF : FairClient L os (clientItems T)) (hP : OrderlyServer (serverItems T)) :
    ∀ m ∈ serverMessages gr (serverItems T), m.RoundTrip L oc := by
  induction ops using snocInduction generalizing n T with
  | nil =>
    cases h
    exact hC.all (V := []) (sops := []) (gs := gs) (s := Server.new gs os gr) rfl (fun e rs hm => absurd hm List.not_mem_nil)
  | snoc ops op ih =>
    rw [Net.run_append] at h
    cases h1 : (Net.new gc oc gs os gr).run L ops with
    | error p => rw [h1] at h; cases h
    | ok x =>
      obtain ⟨n0, T0⟩ := x
      rw [h1] at h
      simp only [Net.run] at h
      cases hs : n0.step L op with
      | error p => rw [hs] at h; cases h
      | ok y =>
        obtain ⟨n1, U⟩ := y
        rw [hs] at h
        simp only [Except.map, List.append_nil, Except.ok.injEq, Prod.mk.injEq] at h
        obtain ⟨rfl, rfl⟩ := h
        have hl0 := Net.run_linked h1
        have hl := hl0.step hs
        rw [serverItems_append] at hC hP ⊢
        rw [clientItems_append] at hF
        have hrt := ih h1 hC.before hF.before hP.prefix
        rcases Net.step_side hs with ⟨V, rfl⟩ | ⟨V, rfl⟩
        · rw [serverItems_map_client, List.append_nil]
          exact hrt
        · obtain ⟨D, fl, ht⟩ := hl0.together hL hO hrt hmax hF.before hP.prefix (List.append_nil _).symm
          obtain ⟨cops, hct⟩ := hl0.client
          obtain ⟨sops, hst⟩ := hl.server
          have hle := hl0.decoded_le hL hrt (List.append_nil _).symm
          rw [serverItems_append, serverItems_map_server] at hst
          rw [serverItems_map_server] at hP hC ⊢
          have hst' : (Server.new gs os gr).trace L sops = .ok (n1.server, serverItems T0 ++ V ++ []) := by
            rw [List.append_nil]; exact hst
          obtain ⟨D', fl', ht'⟩ := ht.serverRun hL hO hmax hF.before hct hst' (by rw [List.append_nil]; exact hP) hle
            fun V1 V2 hV => by
              have := (hl.causal (T0 ++ V1.map .server) (V2.map .server) (by rw [hV]; simp)).2
              rwa [serverItems_append, clientItems_append, serverItems_map_server, clientItems_map_server, List.append_nil] at this
          exact hC.all hst' ht'.accepted

theorem Discarded.no_handle {p : ServerPhase} {e : ServerError} {rs : List ServerMessage} (h : Discarded L os p e rs)
    (hd : RawHandle) (r : Response) : .response (some hd) r ∉ rs := by
  cases p with
  | authenticate => rw [h.1]; exact List.not_mem_nil
  | idle => rw [h.1]; exact List.not_mem_nil
  | idlePending => exact h.elim
  | command =>
    cases e with
    | literalTooLong w =>
      obtain ⟨-, tag, k, mode, -, -, rfl⟩ := h
      unfold rejectReply
      cases mode with
      | nonSync => exact List.not_mem_nil
      | sync =>
        simp only
        split
        · simp
        · exact List.not_mem_nil
    | malformedMessage w => rw [h.1]; exact List.not_mem_nil
    | expectedCrlfGotLf w => rw [h.1]; exact List.not_mem_nil
    | commandTooLong w => rw [h.1]; exact List.not_mem_nil

theorem ClearServer.automatic {S V : List SItem} (hC : ClearServer L oc os gr S) (h : ∀ i ∈ V, i.Automatic)
    {sops : List ServerOp} {s : Server} (hst : (Server.new gs os gr).trace L sops = .ok (s, S ++ V)) :
    ClearServer L oc os gr (S ++ V) := by
  refine ⟨hC.greeting, fun hd r hm => ?_, hC.accepts⟩
  rw [serverMessages_append] at hm
  rcases List.mem_append.mp hm with hm | hm
  · exact hC.user hd r hm
  · obtain ⟨i, hi, hmi⟩ := List.mem_flatMap.mp hm
    have ha := h i hi
    obtain ⟨V1, V2, rfl⟩ := List.append_of_mem hi
    rw [← List.append_assoc] at hst
    have hg := Server.trace_guard hst
    cases i with
    | literal p rs =>
      obtain ⟨-, -, -, -, -, tag, k, mode, -, -, rfl⟩ := hg
      exact hC.accepts mode _ hmi
    | failed e rs => exact (hg.2.2.1.no_handle hd r hmi).elim
    | enqueue => exact ha.elim
    | authContinue => exact ha.elim
    | authFinish => exact ha.elim
    | idleAccept => exact ha.elim
    | idleReject => exact ha.elim
    | _ => exact absurd hmi List.not_mem_nil

/-! ## At rest -/

/-- The assumptions remain true when only the system moves. -/
theorem Net.Linked.unattended (hL : L.Lawful) (hO : ServerOptions.Built L os) (hmax : 0 < os.maxCommandSize)
    (h : (Net.new gc oc gs os gr).run L ops = .ok (n, T)) (hC : ClearServer L oc os gr (serverItems T))
    (hF : FairClient L os (clientItems T)) (hP : OrderlyServer (serverItems T)) {ops' : List NetOp}
    (hi : ∀ op ∈ ops', op.Internal) (hr : n.run L ops' = .ok (n', U)) :
    (Net.new gc oc gs os gr).run L (ops ++ ops') = .ok (n', T ++ U) ∧
      clientEnqueued (clientItems (T ++ U)) = clientEnqueued (clientItems T) ∧
      (∀ m ∈ serverMessages gr (serverItems (T ++ U)), m.RoundTrip L oc) ∧
      FairClient L os (clientItems (T ++ U)) ∧ OrderlyServer (serverItems (T ++ U)) := by
  obtain ⟨ac, as⟩ := Net.run_automatic hi hr
  have hrun : (Net.new gc oc gs os gr).run L (ops ++ ops') = .ok (n', T ++ U) := by
    rw [Net.run_append, h]
    simp only [hr, Except.map]
  obtain ⟨sops, hst⟩ := (Net.run_linked hrun).server
  rw [serverItems_append] at hst
  have hF' := hF.automatic ac
  have hP' := hP.automatic as
  have hC' := hC.automatic as hst
  rw [← clientItems_append] at hF'
  rw [← serverItems_append] at hP' hC'
  exact ⟨hrun, by rw [clientItems_append, clientEnqueued_automatic ac],
    Net.Linked.understood hL hO hmax hrun hC' hF' hP', hF', hP'⟩

/-- No command is rejected. -/
theorem Together.good {A : List CItem} {S : List SItem} {D : List ServerEvent} {fl : Option Underway}
    (h : Together L os gr A S D fl) (hL : L.Lawful) {cops : List ClientOp} {c : Client}
    (hct : (Client.new gc oc).trace L cops = .ok (c, A)) (hF : FairClient L os A) (hreg : ∀ x ∈ clientEnqueued A, x.2.isRegular = true) :
    GoodCommands L os A := by
  refine ⟨hreg, hF.commands.roundTrip, hF.commands.fits, fun hd cmd st hm => ?_⟩
  obtain ⟨i, hi, he⟩ := List.mem_filterMap.mp hm
  have hx := h.expected i hi
  cases i with
  | received w e =>
    simp only [CItem.terminal?, CItem.event?, Option.filter_eq_some_iff, Option.some.injEq] at he
    rw [he.1] at hx
    exact hx
  | sent e =>
    simp only [CItem.terminal?, CItem.event?, Option.filter_eq_some_iff, Option.some.injEq] at he
    obtain ⟨A1, A2, rfl⟩ := List.append_of_mem hi
    obtain ⟨-, h', cmd', q, -, hg⟩ := Client.trace_guard hL hct
    rw [he.1] at hg
    rcases hg with ⟨hg, -⟩ | ⟨hg, -⟩ | ⟨hg, -⟩ | ⟨hg, -⟩ <;> cases hg
  | _ => simp [CItem.terminal?, CItem.event?] at he

/-! ## Servers that read nothing -/

/-- A server that accepts commands of no length at all never waits for input. -/
theorem Server.busy {sops : List ServerOp} {s : Server} {S S' : List SItem}
    (h : (Server.new gs os gr).trace L sops = .ok (s, S ++ S')) (hz : os.maxCommandSize = 0) : serverPhase S = .command := by
  induction S using snocInduction generalizing S' with
  | nil => rfl
  | snoc S i ih =>
    have h' : (Server.new gs os gr).trace L sops = .ok (s, S ++ i :: S') := by rw [h]; simp
    have IH := ih h'
    have hg := Server.trace_guard h'
    unfold serverPhase at IH ⊢
    rw [List.foldl_append, List.foldl_cons, List.foldl_nil, IH]
    have hp : (ServerView.of gr S).phase = .command := by rw [ServerView.of_phase]; exact IH
    cases i with
    | received w e =>
      obtain ⟨-, -, hlen, ht, -⟩ := hg
      rw [hp] at ht
      obtain ⟨c, hm, -⟩ := ht
      have := hm.complete.ne_nil
      cases w with
      | nil => exact absurd rfl this
      | cons x w => rw [hz] at hlen; simp at hlen
    | authFinish st r => cases r <;> rfl
    | idleReject st r => cases r <;> rfl
    | idleAccept q r =>
      cases r with
      | error _ => rfl
      | ok hd =>
        rcases hg with ⟨h1, -⟩ | ⟨-, h1⟩
        · rw [hp] at h1; cases h1
        · cases h1
    | _ => rfl

theorem Net.Linked.busy (h : Net.Linked L gc oc gs os gr n T) (hz : os.maxCommandSize = 0) : ¬ n.Stuck L := by
  intro hs
  obtain ⟨n', ws, U, hl, -, -, -⟩ := h.stuck hs
  obtain ⟨sops, hst⟩ := hl.server
  rw [serverItems_append, serverItems_map_server, ← List.append_assoc] at hst
  have hp := Server.busy hst hz
  obtain ⟨-, hstarve, -⟩ := Server.trace_guard hst
  rw [ServerView.of_phase, hp] at hstarve
  have := hstarve.2
  omega

end ImapFlow
