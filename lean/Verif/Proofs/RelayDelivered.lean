import Verif.Proofs.RelayRest
import Verif.Proofs.RelayTurn
import Verif.Proofs.RelayEnd

/-!
# At rest with the proxy in between, everything was delivered
-/

namespace ImapFlow

variable {K : Type} {paired : K → K → Prop} {L : Lib} {tc tpc tps ts : Option (Tls K)} {gc gpc gps gs : HandleGenerator}
  {oc : ClientOptions} {op os : ServerOptions} {gr : Greeting} {r r' : Relay K} {R I : List RelayItem}
  {c : Client} {s : Server} {A : List CItem} {S : List SItem} {as : List RelayAct}

/-! ## The sockets stay open -/

/-- The sockets are neither closed nor do they fail. -/
theorem socket_item {σ ε ev ι : Type} {M : Machine σ ε ev ι} {x x' : FullStream K σ} {act : SideAct ι} {wire : Bytes}
    {T : List (FullItem ε ev ι)} (h : x.step M (act.toStream wire) = some (x', T)) (hi : act.Internal wire)
    {i : StreamItem ε ev ι} (hm : i ∈ streamPart T) : ¬ i.SocketEnd := by
  intro he
  have hp : ∀ {b s s1 D}, Provides M b s s1 D → i ∉ D := by
    rintro b s s1 D (⟨rfl, rfl, rfl⟩ | ⟨-, h1, rfl⟩) hd
    · cases hd
    · rw [List.mem_singleton] at hd
      subst hd
      exact he
  have hadv : ∀ {c c' : FullStream K σ} {T}, FullStream.Advanced M c c' T → i ∉ streamPart T := by
    intro c c' T hA hm
    cases hA with
    | hung => simp [streamPart, FullItem.stream?] at hm
    | broken => simp [streamPart, FullItem.stream?] at hm; all_goals (subst hm; exact he)
    | inputPanic => simp [streamPart, FullItem.stream?] at hm; subst hm; exact he
    | nextPanic h1 h2 =>
      have := hp h2
      rw [streamPart_append, streamPart_map] at hm
      simp [streamPart, FullItem.stream?, this] at hm
      subst hm; exact he
    | @returned _ _ _ _ _ _ r h1 h2 =>
      have := hp h2
      rw [streamPart_map] at hm
      rcases r with (io | e) | e <;> simp [returns, this] at hm
      · subst hm; exact he
      · rcases hm with rfl | rfl <;> exact he
      · rcases hm with rfl | rfl <;> exact he
    | waits h1 h2 =>
      have := hp h2
      rw [streamPart_map] at hm
      simp [this] at hm
      subst hm; exact he
    | refused h1 h2 =>
      have := hp h2
      rw [streamPart_append, streamPart_map] at hm
      simp [streamPart, FullItem.stream?, this] at hm
      rcases hm with rfl | rfl <;> exact he
  have hadv : ∀ c : FullStream K σ, i ∉ streamPart (c.advance M).2 :=
    fun c => hadv (FullStream.advance_cases M c)
  cases act with
  | callNext =>
    simp only [SideAct.toStream, FullStream.step] at h
    split at h
    · cases h
      rw [streamPart_cons] at hm
      simp at hm
      rcases hm with rfl | hm
      · exact he
      · exact hadv _ hm
    · cases h
  | read n =>
    have hne : (wire.take n).length ≠ 0 := by
      have := List.length_pos_iff.2 hi.2
      have := hi.1
      rw [List.length_take]
      omega
    have key : i ∈ streamPart (x.completeRead M (wire.take n)).2 → False := by
      intro hm
      simp only [FullStream.completeRead, hne, if_false] at hm
      rw [streamPart_cons] at hm
      simp at hm
      rcases hm with rfl | hm
      · cases hx : wire.take n with
        | nil => rw [hx] at hne; exact hne rfl
        | cons => rw [hx] at he; exact he
      · exact hadv _ hm
    simp only [SideAct.toStream, FullStream.step] at h
    split at h <;> first | (cases h; done) | (injection h with h; rw [h] at key; exact key hm)
  | write n =>
    have h0 : n ≠ 0 := Nat.pos_iff_ne_zero.1 hi
    simp only [SideAct.toStream, FullStream.step] at h
    split at h
    · rename_i hle
      have hw : ¬ StreamItem.SocketEnd (StreamItem.wrote (x.writeBuffer.take n) : StreamItem ε ev ι) := by
        intro he
        cases hx : x.writeBuffer.take n with
        | nil =>
          have : (x.writeBuffer.take n).length = 0 := by rw [hx]; rfl
          rw [List.length_take] at this
          omega
        | cons => rw [hx] at he; exact he
      split at h
      · injection h with h
        simp only [FullStream.completeWrite, h0, if_false] at h
        split at h
        · cases h
          rw [streamPart_cons] at hm
          simp at hm
          rcases hm with rfl | hm
          · exact hw he
          · exact hadv _ hm
        · cases h
          simp [streamPart, FullItem.stream?] at hm
          subst hm; exact hw he
      · injection h with h
        simp only [FullStream.completeFlush, h0, if_false] at h
        split at h
        · cases h
          simp [streamPart, FullItem.stream?] at hm
          rcases hm with rfl | rfl
          · exact hw he
          · exact he
        · cases h
          simp [streamPart, FullItem.stream?] at hm
          subst hm; exact hw he
      · cases h
    · cases h
  | user op => exact hi.elim
  | callFlush => exact hi.elim
  | fail => exact hi.elim
  | drop => exact hi.elim

theorem clientBranch_open {d : FullStream K Server} {u : FullStream K Client} {res : Except (StreamError ServerError) ServerEvent}
    {x : ProxyItem} (h : x ∈ (Proxy.clientBranch L d u res).2) :
    x = .server .dropped ∨ (∃ op, x = .server (.user op)) ∨ ∃ p, x = .panicked p := by
  unfold Proxy.clientBranch at h
  have hd : ∀ y ∈ (u.dropFuture (ε := ClientError) (ev := ClientEvent) (ι := ClientOp)).2.map ProxyItem.ofServer,
      y = .server .dropped := by
    unfold FullStream.dropFuture
    intro y hy
    split at hy <;> first | (cases hy; done) | (simpa [ProxyItem.ofServer] using hy)
  dsimp only at h
  split at h
  · rcases List.mem_append.1 h with h | h
    · exact .inl (hd x h)
    · exact .inr (.inr ⟨_, List.mem_singleton.1 h⟩)
  · split at h <;>
    · rcases List.mem_append.1 h with h | h
      · exact .inl (hd x h)
      · obtain ⟨op, -, rfl⟩ := List.mem_map.1 h
        exact .inr (.inl ⟨op, rfl⟩)

theorem serverBranch_open {d : FullStream K Server} {u : FullStream K Client} {res : Except (StreamError ClientError) ClientEvent}
    {x : ProxyItem} (h : x ∈ (Proxy.serverBranch L d u res).2) :
    x = .client .dropped ∨ (∃ op, x = .client (.user op)) ∨ ∃ p, x = .panicked p := by
  unfold Proxy.serverBranch at h
  have hd : ∀ y ∈ (d.dropFuture (ε := ServerError) (ev := ServerEvent) (ι := ServerOp)).2.map ProxyItem.ofClient,
      y = .client .dropped := by
    unfold FullStream.dropFuture
    intro y hy
    split at hy <;> first | (cases hy; done) | (simpa [ProxyItem.ofClient] using hy)
  dsimp only at h
  split at h
  · rcases List.mem_append.1 h with h | h
    · exact .inl (hd x h)
    · exact .inr (.inr ⟨_, List.mem_singleton.1 h⟩)
  · split at h <;>
    · rcases List.mem_append.1 h with h | h
      · exact .inl (hd x h)
      · obtain ⟨op, -, rfl⟩ := List.mem_map.1 h
        exact .inr (.inl ⟨op, rfl⟩)

/-- What a proxy item says about a socket. -/
def ProxyItem.Ends : ProxyItem → Prop
  | .client i => i.SocketEnd
  | .server i => i.SocketEnd
  | _ => False

theorem ofClient_open {T : List (FullItem ServerError ServerEvent ServerOp)} (h : ∀ i ∈ streamPart T, ¬ i.SocketEnd) :
    ∀ x ∈ T.map ProxyItem.ofClient, ¬ x.Ends := by
  intro x hx
  obtain ⟨i, h1, rfl⟩ := List.mem_map.1 hx
  cases i with
  | stream i => exact h i (List.mem_filterMap.2 ⟨_, h1, rfl⟩)
  | _ => exact id

theorem ofServer_open {T : List (FullItem ClientError ClientEvent ClientOp)} (h : ∀ i ∈ streamPart T, ¬ i.SocketEnd) :
    ∀ x ∈ T.map ProxyItem.ofServer, ¬ x.Ends := by
  intro x hx
  obtain ⟨i, h1, rfl⟩ := List.mem_map.1 hx
  cases i with
  | stream i => exact h i (List.mem_filterMap.2 ⟨_, h1, rfl⟩)
  | _ => exact id

theorem Proxy.step_client_open {p p' : Proxy K} {a : PollAct} {wire : Bytes} {J : List ProxyItem} (hi : a.Internal wire)
    (h : p.step L gps (.client (a.toIo wire)) = some (p', J)) : ∀ x ∈ J, ¬ x.Ends := by
  cases p with
  | conversation d u =>
    simp only [Proxy.step] at h
    cases hd : d.step (serverMachine L) (a.toIo wire).toStream with
    | none => rw [hd] at h; cases h
    | some y =>
      obtain ⟨d', T⟩ := y
      rw [hd] at h
      obtain ⟨act, h1, h2, -⟩ := PollAct.internal (ι := ServerOp) hi
      rw [← h2] at hd
      have hT := ofClient_open fun i hm => socket_item hd h1 hm
      dsimp only at h
      repeat' split at h
      all_goals cases h
      all_goals intro x hx
      · exact hT x hx
      · exact hT x hx
      · exact hT x hx
      · rcases List.mem_append.1 hx with hx | hx
        · exact hT x hx
        · rcases clientBranch_open hx with rfl | ⟨op, rfl⟩ | ⟨p, rfl⟩ <;> exact id
  | _ => cases h

theorem Proxy.step_server_open {p p' : Proxy K} {a : PollAct} {wire : Bytes} {J : List ProxyItem} (hi : a.Internal wire)
    (h : p.step L gps (.server (a.toIo wire)) = some (p', J)) : ∀ x ∈ J, ¬ x.Ends := by
  cases p with
  | conversation d u =>
    simp only [Proxy.step] at h
    cases hd : u.step (clientMachine L) (a.toIo wire).toStream with
    | none => rw [hd] at h; cases h
    | some y =>
      obtain ⟨d', T⟩ := y
      rw [hd] at h
      obtain ⟨act, h1, h2, -⟩ := PollAct.internal (ι := ClientOp) hi
      rw [← h2] at hd
      have hT := ofServer_open fun i hm => socket_item hd h1 hm
      dsimp only at h
      repeat' split at h
      all_goals cases h
      all_goals intro x hx
      · exact hT x hx
      · exact hT x hx
      · exact hT x hx
      · rcases List.mem_append.1 hx with hx | hx
        · exact hT x hx
        · rcases serverBranch_open hx with rfl | ⟨op, rfl⟩ | ⟨p, rfl⟩ <;> exact id
  | greeting t u =>
    simp only [Proxy.step] at h
    cases hd : u.step (clientMachine L) (a.toIo wire).toStream with
    | none => rw [hd] at h; cases h
    | some y =>
      obtain ⟨d', T⟩ := y
      rw [hd] at h
      obtain ⟨act, h1, h2, -⟩ := PollAct.internal (ι := ClientOp) hi
      rw [← h2] at hd
      have hT := ofServer_open fun i hm => socket_item hd h1 hm
      dsimp only at h
      repeat' split at h
      all_goals cases h
      all_goals intro x hx
      · exact hT x hx
      · exact hT x hx
      · exact hT x hx
      · rcases List.mem_append.1 hx with hx | hx
        · exact hT x hx
        · rw [List.mem_singleton.1 hx]; exact id
      · exact hT x hx
  | _ => cases h

/-- The calls on the client and on the server during a step without users. -/
structure Relay.Attended (I : List RelayItem) : Prop where
  client : ∀ op ∈ clientOps (streamPart (relayClient I)), op = .next ∨ ∃ b, op = .enqueueInput b
  server : ∀ op ∈ serverOps (streamPart (relayServer I)), op = .next ∨ ∃ b, op = .enqueueInput b
  proxy : ∀ x ∈ relayProxy I, ¬ x.Ends

theorem Relay.Moves.attended (h : r.Moves L gps r' I) : Relay.Attended I := by
  obtain ⟨a, hi, hs⟩ := h
  have hc : ∀ {V : List (FullItem ClientError ClientEvent ClientOp)}, (∀ op, .user op ∉ streamPart V) →
      ∀ op ∈ clientOps (streamPart V), op = .next ∨ ∃ b, op = .enqueueInput b := by
    intro V hV op ho
    obtain ⟨i, h1, h2⟩ := List.mem_filterMap.1 ho
    cases i with
    | user op' => exact absurd h1 (hV _)
    | poll e => cases h2; exact .inl rfl
    | deliver b => cases h2; exact .inr ⟨_, rfl⟩
    | _ => cases h2
  have hv : ∀ {V : List (FullItem ServerError ServerEvent ServerOp)}, (∀ op, .user op ∉ streamPart V) →
      ∀ op ∈ serverOps (streamPart V), op = .next ∨ ∃ b, op = .enqueueInput b := by
    intro V hV op ho
    obtain ⟨i, h1, h2⟩ := List.mem_filterMap.1 ho
    cases i with
    | user op' => exact absurd h1 (hV _)
    | poll e => cases h2; exact .inl rfl
    | deliver b => cases h2; exact .inr ⟨_, rfl⟩
    | _ => cases h2
  cases a with
  | client act =>
    have hs' : r.clientStep L act = some (r', I) := by
      cases act with
      | user op => exact hi.elim
      | _ => exact hs
    simp only [Relay.clientStep] at hs'
    split at hs'
    · cases hs'
    rename_i c' V hst
    cases hs'
    obtain ⟨e1, e2, e3⟩ := relay_client V
    refine ⟨?_, ?_, ?_⟩
    · rw [e1]
      exact hc fun op hm => by have := user_item hst hm; subst this; exact hi.elim
    · rw [e3]; exact fun op ho => by cases ho
    · rw [e2]; exact fun op ho => by cases ho
  | server act =>
    have hs' : r.serverStep L act = some (r', I) := by
      cases act with
      | user op => exact hi.elim
      | _ => exact hs
    simp only [Relay.serverStep] at hs'
    split at hs'
    · cases hs'
    rename_i c' V hst
    cases hs'
    obtain ⟨e1, e2, e3⟩ := relay_server V
    refine ⟨?_, ?_, ?_⟩
    · rw [e1]; exact fun op ho => by cases ho
    · rw [e3]
      exact hv fun op hm => by have := user_item hst hm; subst this; exact hi.elim
    · rw [e2]; exact fun op ho => by cases ho
  | proxyClient act =>
    simp only [Relay.step] at hs
    split at hs
    · cases hs
    rename_i p J hp
    cases hs
    obtain ⟨e1, e2, e3⟩ := relay_proxy J
    refine ⟨?_, ?_, ?_⟩
    · rw [e1]; exact fun op ho => by cases ho
    · rw [e3]; exact fun op ho => by cases ho
    · rw [e2]; exact Proxy.step_client_open hi hp
  | proxyServer act =>
    simp only [Relay.step] at hs
    split at hs
    · cases hs
    rename_i p J hp
    cases hs
    obtain ⟨e1, e2, e3⟩ := relay_proxy J
    refine ⟨?_, ?_, ?_⟩
    · rw [e1]; exact fun op ho => by cases ho
    · rw [e3]; exact fun op ho => by cases ho
    · rw [e2]; exact Proxy.step_server_open hi hp

theorem Relay.Unattended.attended (h : r.Unattended L gps r' I) : Relay.Attended I := by
  induction h with
  | nil => exact ⟨fun op ho => (by cases ho), fun op ho => (by cases ho), fun op ho => (by cases ho)⟩
  | snoc _ hm ih =>
    have hm := hm.attended
    refine ⟨?_, ?_, ?_⟩
    · rw [relayClient_append, streamPart_append, clientOps_append]
      exact fun op ho => (List.mem_append.1 ho).elim (ih.client op) (hm.client op)
    · rw [relayServer_append, streamPart_append, serverOps_append]
      exact fun op ho => (List.mem_append.1 ho).elim (ih.server op) (hm.server op)
    · rw [relayProxy_append]
      exact fun op ho => (List.mem_append.1 ho).elim (ih.proxy op) (hm.proxy op)

theorem Relay.Attended.open (h : Relay.Attended I) (hR : RelayOpen R) : RelayOpen (R ++ I) := by
  have key : ∀ x : ProxyItem, x.Ends → .proxy x ∉ R → .proxy x ∉ R ++ I := by
    intro x hx hn hm
    rcases List.mem_append.1 hm with hm | hm
    · exact hn hm
    · exact h.proxy x (mem_relayProxy.2 hm) hx
  obtain ⟨⟨a, b, c⟩, d, e, f⟩ := hR
  exact ⟨⟨key _ trivial a, key _ trivial b, key _ trivial c⟩, key _ trivial d, key _ trivial e, key _ trivial f⟩

/-! ## The users did nothing -/

theorem Client.trace_automatic {c c' : Client} {ops : List ClientOp} {V : List CItem}
    (ho : ∀ op ∈ ops, op = .next ∨ ∃ b, op = .enqueueInput b) (h : c.trace L ops = .ok (c', V)) : ∀ i ∈ V, i.Automatic := by
  induction ops generalizing c V with
  | nil => cases h; exact fun i hi => by cases hi
  | cons op ops ih =>
    simp only [Client.trace] at h
    cases h1 : c.callTrace L op with
    | error p => rw [h1] at h; cases h
    | ok x =>
      obtain ⟨c1, U⟩ := x
      rw [h1] at h
      simp only at h
      cases h2 : c1.trace L ops with
      | error p => rw [h2] at h; cases h
      | ok y =>
        obtain ⟨c2, U'⟩ := y
        rw [h2] at h
        cases h
        have h3 := ih (fun op hm => ho op (by simp [hm])) h2
        have h4 : ∀ i ∈ U, i.Automatic := by
          rcases ho op (by simp) with rfl | ⟨b, rfl⟩
          · exact Client.nextTrace_automatic h1
          · simp only [Client.callTrace] at h1
            cases h5 : c.enqueueInput b with
            | error p => rw [h5] at h1; cases h1
            | ok x => rw [h5] at h1; cases h1; intro i hi; rw [List.mem_singleton.1 hi]; trivial
        exact fun i hi => (List.mem_append.1 hi).elim (h4 i) (h3 i)

theorem Server.trace_automatic {s s' : Server} {ops : List ServerOp} {V : List SItem}
    (ho : ∀ op ∈ ops, op = .next ∨ ∃ b, op = .enqueueInput b) (h : s.trace L ops = .ok (s', V)) : ∀ i ∈ V, i.Automatic := by
  induction ops generalizing s V with
  | nil => cases h; exact fun i hi => by cases hi
  | cons op ops ih =>
    simp only [Server.trace] at h
    cases h1 : s.callTrace L op with
    | error p => rw [h1] at h; cases h
    | ok x =>
      obtain ⟨c1, U⟩ := x
      rw [h1] at h
      simp only at h
      cases h2 : c1.trace L ops with
      | error p => rw [h2] at h; cases h
      | ok y =>
        obtain ⟨c2, U'⟩ := y
        rw [h2] at h
        cases h
        have h3 := ih (fun op hm => ho op (by simp [hm])) h2
        have h4 : ∀ i ∈ U, i.Automatic := by
          rcases ho op (by simp) with rfl | ⟨b, rfl⟩
          · exact Server.nextTrace_automatic h1
          · simp only [Server.callTrace] at h1
            cases h5 : s.enqueueInput b with
            | error p => rw [h5] at h1; cases h1
            | ok x => rw [h5] at h1; cases h1; intro i hi; rw [List.mem_singleton.1 hi]; trivial
        exact fun i hi => (List.mem_append.1 hi).elim (h4 i) (h3 i)

theorem RelayUsers.automatic {A' : List CItem} {S' : List SItem} (h : RelayUsers L oc .default op os gr A S)
    (hA : ∀ i ∈ A', i.Automatic) (hS : ∀ i ∈ S', i.Automatic) {sops : List ServerOp}
    (hst : (Server.new gs os gr).trace L sops = .ok (s, S ++ S')) :
    RelayUsers L oc .default op os gr (A ++ A') (S ++ S') := by
  refine ⟨h.near.automatic hA, h.far.automatic hA, h.orderly.automatic hS, h.greeting, ?_, h.accepts⟩
  intro hd r hm
  rw [serverMessages_append] at hm
  rcases List.mem_append.mp hm with hm | hm
  · exact h.responses hd r hm
  · exfalso
    obtain ⟨i, hi, hmi⟩ := List.mem_flatMap.mp hm
    have ha := hS i hi
    obtain ⟨V1, V2, rfl⟩ := List.append_of_mem hi
    rw [← List.append_assoc] at hst
    have hg := Server.trace_guard hst
    cases i with
    | literal p rs =>
      obtain ⟨-, -, -, -, -, tag, k, mode, -, -, rfl⟩ := hg
      simp only [SItem.enqueues, acceptReply] at hmi
      repeat' split at hmi
      all_goals simp at hmi
    | failed e rs => exact hg.2.2.1.no_handle hd r hmi
    | enqueue => exact ha.elim
    | authContinue => exact ha.elim
    | authFinish => exact ha.elim
    | idleAccept => exact ha.elim
    | idleReject => exact ha.elim
    | _ => exact absurd hmi List.not_mem_nil

/-! ## At rest -/

theorem saidEnded_received {x : RawHandle × Command} (h : x.2.isRegular = true) (e : ClientEnded) :
    (saidEnded (x, e)).filterMap ServerEvent.received? = [x.2] := by
  have h1 : ∀ ds : List AuthenticateData, (ds.map ServerEvent.authenticateDataReceived).filterMap ServerEvent.received? = [] := by
    intro ds
    induction ds with
    | nil => rfl
    | cons a ds ih => exact ih
  have h2 : x.2.event.received? = some x.2 := by
    obtain ⟨hd, t, b⟩ := x
    cases b <;> first | cases h; done | rfl
  unfold saidEnded
  dsimp only
  rw [List.cons_append, List.filterMap_cons_some h2, List.filterMap_append, h1]
  split <;> rfl

/-- If all commands are regular and it is the turn of any user, all commands were said. -/
theorem said_received {v : ClientView} {p : ServerPhase} {d : ServerDialogue} (h : Turn v p d)
    (hr : ∀ c ∈ v.enqueued.map Prod.snd, c.isRegular = true) :
    v.said.filterMap ServerEvent.received? = v.enqueued.map Prod.snd := by
  have reg : ∀ {x}, v.current = some x → x.2.isRegular = true := by
    intro x hx
    unfold ClientView.current at hx
    split at hx
    · cases hx
    · exact hr _ (List.mem_map_of_mem (List.mem_of_mem_drop (List.mem_of_head? hx)))
  have auth : ∀ {c : Command}, c.isAuthenticate = true → c.isRegular = true → False := by
    rintro ⟨t, b⟩ h1 h2
    cases b <;> simp_all [Command.isRegular, Command.isAuthenticate]
  have idle : ∀ {c : Command}, c.isIdle = true → c.isRegular = true → False := by
    intro c h1 h2
    rw [(isIdle_not h1).1] at h2
    cases h2
  cases h with
  | idle h1 h2 h3 h4 =>
    rw [ClientView.said_none h1]
    have hle : v.enqueued.length ≤ v.ended.length := by
      have := congrArg List.length h2
      simp only [ClientView.remaining, List.length_drop, List.length_nil] at this
      omega
    unfold ClientView.saidBefore
    generalize v.enqueued = E at hr hle ⊢
    generalize v.ended = F at hle ⊢
    induction E generalizing F with
    | nil => rfl
    | cons x E ih =>
      cases F with
      | nil => simp at hle
      | cons e F =>
        rw [List.zip_cons_cons, List.flatMap_cons, List.filterMap_append, saidEnded_received (hr _ (by simp)),
          ih (fun c hc => hr c (List.mem_cons_of_mem _ hc)) F (by simpa using hle)]
        rfl
  | authenticateServer h c h1 h2 => exact (auth h2 (reg h1)).elim
  | authenticateClient h c h1 h2 => exact (auth h2 (reg h1)).elim
  | idleServer h c h1 h2 => exact (idle h2 (reg h1)).elim
  | idleClient h c h1 h2 => exact (idle h2 (reg h1)).elim

/-- TLS does not fail, and the first event of the connection to the server is a greeting. -/
theorem Relay.healthy (hL : L.Lawful) (hP : L.Proxyable) (hopt : proxyServerOptions L = .ok op) (hO : ServerOptions.Built L os)
    (hc : Handshaken paired tc tpc) (hv : Handshaken paired tps ts)
    (h : (Relay.new tc tpc tps ts gc oc gpc gs os gr).run L gps as = some (r, R)) (hr : RelayAccepted R) :
    (∀ i : TlsItem, .proxy (.clientTls i) ∉ R ∧ .proxy (.serverTls i) ∉ R) ∧
    ∀ e es, streamEvents (serverSide (relayProxy R)) = e :: es → ∃ g, e = .greetingReceived g := by
  obtain ⟨g, c, s, G1, G2, -, c1, c2, -⟩ := Relay.connections hL hP hopt h
  have hr1 : .client .refused ∉ G1 ∧ .server .refused ∉ G1 :=
    ⟨fun hx => hr.1 (mem_relayClient.1 ((c1.client.2 _).1 hx)),
      fun hx => hr.2.2.1 (mem_relayProxy.1 (clientTls_refused ((c1.server.2 _).1 hx)))⟩
  have hr2 : .client .refused ∉ G2 ∧ .server .refused ∉ G2 :=
    ⟨fun hx => hr.2.2.2 (mem_relayProxy.1 (serverTls_refused ((c2.client.2 _).1 hx))),
      fun hx => hr.2.1 (mem_relayServer.1 ((c2.server.2 _).1 hx))⟩
  obtain ⟨as1, run1⟩ := c1.run
  obtain ⟨as2, run2⟩ := c2.run
  obtain ⟨n1, T1, -, -, -, -, -, a2⟩ := StreamNet.Tracks.run (ops := []) hL (proxyServerOptions_built hL hP hopt) rfl
    (StreamNet.new_tracks hc gc gps oc op g) run1 hr1
  obtain ⟨n2, T2, b0, -, b1, -, b2, -⟩ := StreamNet.Tracks.run (ops := []) hL hO rfl
    (StreamNet.new_tracks hv gpc gs .default os gr) run2 hr2
  have pc : ∀ i, .server i ∉ G1 → i ∉ clientFull (relayProxy R) := fun i hi hx => hi ((c1.server.2 i).2 hx)
  have ps : ∀ i, .client i ∉ G2 → i ∉ serverFull (relayProxy R) := fun i hi hx => hi ((c2.client.2 i).2 hx)
  refine ⟨?_, ?_⟩
  · intro i
    constructor <;> intro hx <;> have hx := mem_relayProxy.2 hx
    · cases i with
      | refused => exact pc _ hr1.2 (List.mem_filterMap.2 ⟨_, hx, rfl⟩)
      | broken => exact pc _ a2.2.1 (List.mem_filterMap.2 ⟨_, hx, rfl⟩)
      | hung => exact pc _ a2.1 (List.mem_filterMap.2 ⟨_, hx, rfl⟩)
    · cases i with
      | refused => exact ps _ hr2.1 (List.mem_filterMap.2 ⟨_, hx, rfl⟩)
      | broken => exact ps _ b2.2.1 (List.mem_filterMap.2 ⟨_, hx, rfl⟩)
      | hung => exact ps _ b2.1 (List.mem_filterMap.2 ⟨_, hx, rfl⟩)
  · intro e es he
    obtain ⟨cops, hct⟩ := (Net.run_linked b0).client
    refine Client.first_event hL hct (es := es) ?_
    have ev2 : events (atClient G2) = streamEvents (serverSide (relayProxy R)) := by
      rw [c2.client.1, streamPart_serverFull, events_eq]
    rw [← List.filterMap_filterMap, b1.results, List.filterMap_filterMap, ← (StreamNet.run_events run2).1, ev2, he]

/-- The conversation is over only if a socket of the proxy was closed or failed. -/
theorem Relay.open_end (hL : L.Lawful) (hP : L.Proxyable) (hopt : proxyServerOptions L = .ok op) (hO : ServerOptions.Built L os)
    (hmax : 0 < os.maxCommandSize) (hc : Handshaken paired tc tpc) (hv : Handshaken paired tps ts)
    (h : (Relay.new tc tpc tps ts gc oc gpc gs os gr).run L gps as = some (r, R)) (hr : RelayAccepted R)
    (hA : (Client.new gc oc).trace L (clientOps (streamPart (relayClient R))) = .ok (c, A))
    (hS : (Server.new gs os gr).trace L (serverOps (streamPart (relayServer R))) = .ok (s, S))
    (hU : RelayUsers L oc .default op os gr A S) (ho : r.proxy = .over) :
    (∃ i ∈ [.read [], .wrote [], .failed], .proxy (.client i) ∈ R) ∨
    ∃ i ∈ [.read [], .wrote [], .failed], .proxy (.server i) ∈ R := by
  obtain ⟨hs, T1, T2, d, u, hb, rfl, rfl⟩ := Relay.bound hL hP hopt hO hmax hc hv h hr hA hS hU
  obtain ⟨tls, first⟩ := Relay.healthy hL hP hopt hO hc hv h hr
  obtain ⟨ops2, n2, h2, -⟩ := hb.far
  obtain ⟨D, fl, ht⟩ := hU.far_together hs hb.good.fair h2 (P := T2) (Q := []) (by simp)
  obtain ⟨-, -, -, -, -, ⟨pas, hp⟩, -⟩ := Relay.connections hL hP hopt h
  have he := Proxy.run_ending (T := []) (show (Proxy.start tpc tps gpc).Ending [] from rfl) hp
  rw [ho, List.nil_append] at he
  have hend : ∀ {ε ev ι : Type} (i : StreamItem ε ev ι), i.SocketEnd → i ∈ [.read [], .wrote [], .failed] := by
    intro ε ev ι i hi
    unfold StreamItem.SocketEnd at hi
    split at hi
    · simp
    · simp
    · simp
    · exact hi.elim
  rcases he with ⟨i, hi, hx⟩ | ⟨i, hi, hx⟩ | ⟨i, hi | hi⟩ | ⟨e, hi⟩ | ⟨e, h1, h2⟩
  · exact .inl ⟨i, hend i hx, mem_relayProxy.1 hi⟩
  · exact .inr ⟨i, hend i hx, mem_relayProxy.1 hi⟩
  · exact ((tls i).1 (mem_relayProxy.1 hi)).elim
  · exact ((tls i).2 (mem_relayProxy.1 hi)).elim
  · exfalso
    obtain ⟨j, j1, j2⟩ := List.mem_filterMap.1 (hb.farPolled e (List.mem_filterMap.2 ⟨_, hi, rfl⟩))
    cases j with
    | failed e' => exact ht.expected _ j1
    | _ => simp [CItem.result?, CItem.erase] at j2
  · exfalso
    obtain ⟨g, hg⟩ := first e [] h1
    exact h2 g hg

/-- The proxy does not wait for a greeting that does not come. -/
theorem Relay.greeting_comes (hL : L.Lawful) (hP : L.Proxyable) (hopt : proxyServerOptions L = .ok op) (hO : ServerOptions.Built L os)
    (hmax : 0 < os.maxCommandSize) (hc : Handshaken paired tc tpc) (hv : Handshaken paired tps ts)
    (h : (Relay.new tc tpc tps ts gc oc gpc gs os gr).run L gps as = some (r, R)) (hr : RelayAccepted R)
    (hA : (Client.new gc oc).trace L (clientOps (streamPart (relayClient R))) = .ok (c, A))
    (hS : (Server.new gs os gr).trace L (serverOps (streamPart (relayServer R))) = .ok (s, S))
    (hU : RelayUsers L oc .default op os gr A S) :
    ¬ ∃ t v, r.proxy = .greeting t v ∧ v.ctl = .at .reading ∧ r.serverToProxy = [] ∧ r.server.ctl = .at .reading := by
  rintro ⟨t, v, hq, w5, w6, w3⟩
  obtain ⟨hs, T1, T2, d, u, hb, rfl, rfl⟩ := Relay.bound hL hP hopt hO hmax hc hv h hr hA hS hU
  rcases hb.proxy with e | e | e
  · rw [hq] at e
    cases e
    obtain ⟨ops2, n2, h2, t2⟩ := hb.far
    have l2 := Net.run_linked h2
    have hrt2 := Net.Linked.understood hs.lawful hs.builtFar hs.sizeFar h2 hU.clearFar hb.good.fair hU.orderly
    obtain ⟨cops2, hct2⟩ := l2.client
    obtain ⟨sops2, hst2⟩ := l2.server
    obtain ⟨B3, e3⟩ := hb.farParked.starved hL w5 hct2
    obtain ⟨B4, e4⟩ := hb.serverParked.starved l2 hrt2 w3
    have z4 : n2.toClient = [] := by
      have := t2.toClient
      dsimp only at this
      rw [w6, t2.serverSound.reading w3] at this
      exact this.empty
    have h3 := (l2.all_read hL hrt2 z4 e3).2
    rw [e4] at h3 hst2
    have h4 := h3.2 (by
      have := Server.starved_greeting (T2 := []) hst2
      rw [serverOutputs_append, List.length_append]
      omega)
    have h5 := ClientView.silent_greeted (U := B3) fun i hi => (hb.waiting hq).2.2 i (by rw [e3]; simp [hi])
    rw [(ClientView.of_greeted B3).2 h4] at h5
    cases h5
  · rw [hq] at e; cases e
  · rw [hq] at e; cases e

/-- The proxy does not end as long as its sockets are open. -/
theorem Relay.not_over (hL : L.Lawful) (hP : L.Proxyable) (hopt : proxyServerOptions L = .ok op) (hO : ServerOptions.Built L os)
    (hmax : 0 < os.maxCommandSize) (hc : Handshaken paired tc tpc) (hv : Handshaken paired tps ts)
    (h : (Relay.new tc tpc tps ts gc oc gpc gs os gr).run L gps as = some (r, R)) (hr : RelayAccepted R)
    (hA : (Client.new gc oc).trace L (clientOps (streamPart (relayClient R))) = .ok (c, A))
    (hS : (Server.new gs os gr).trace L (serverOps (streamPart (relayServer R))) = .ok (s, S))
    (hU : RelayUsers L oc .default op os gr A S) (hopen : RelayOpen R) : ¬ r.proxy.Ended := by
  intro hq
  have hend := Relay.open_end hL hP hopt hO hmax hc hv h hr hA hS hU
  obtain ⟨hs, T1, T2, d, u, hb, rfl, rfl⟩ := Relay.bound hL hP hopt hO hmax hc hv h hr hA hS hU
  rcases hb.proxy with e | e | e
  · rw [e] at hq; exact hq
  · rw [e] at hq; exact hq
  · obtain ⟨⟨a, b, c⟩, d, e', f⟩ := hopen
    rcases hend e with ⟨i, hi, hm⟩ | ⟨i, hi, hm⟩ <;> simp only [List.mem_cons, List.not_mem_nil, or_false] at hi <;>
      rcases hi with rfl | rfl | rfl <;> contradiction

/-- At rest, the proxy is in the conversation. -/
theorem Relay.rest_waiting (hL : L.Lawful) (hP : L.Proxyable) (hopt : proxyServerOptions L = .ok op) (hO : ServerOptions.Built L os)
    (hmax : 0 < os.maxCommandSize) (hc : Handshaken paired tc tpc) (hv : Handshaken paired tps ts)
    (h : (Relay.new tc tpc tps ts gc oc gpc gs os gr).run L gps as = some (r, R)) (hr : RelayAccepted R)
    (hA : (Client.new gc oc).trace L (clientOps (streamPart (relayClient R))) = .ok (c, A))
    (hS : (Server.new gs os gr).trace L (serverOps (streamPart (relayServer R))) = .ok (s, S))
    (hU : RelayUsers L oc .default op os gr A S) (hopen : RelayOpen R) (hw : r.AtRest) : r.Waiting := by
  have hg := Relay.greeting_comes hL hP hopt hO hmax hc hv h hr hA hS hU
  have hn := Relay.not_over hL hP hopt hO hmax hc hv h hr hA hS hU hopen
  obtain ⟨⟨w1, w2⟩, ⟨w3, w4⟩, w5⟩ := hw
  cases e : r.proxy with
  | greeting t v => rw [e] at w5; exact absurd ⟨t, v, e, w5.1, w5.2, w3⟩ hg
  | conversation d u =>
    rw [e] at w5
    obtain ⟨⟨w5, w6⟩, w7, w8⟩ := w5
    exact ⟨⟨w6, w2, w4, w8⟩, w1, w3, d, u, e, w5, w7⟩
  | over => rw [e] at hn; exact absurd trivial hn
  | hung => rw [e] at hn; exact absurd trivial hn
  | dead => rw [e] at hn; exact absurd trivial hn

/-- The traces after steps without users. -/
theorem Relay.Unattended.traces (hL : L.Lawful) (hO : ServerOptions.Built L os)
    (hA : (Client.new gc oc).trace L (clientOps (streamPart (relayClient R))) = .ok (c, A))
    (hS : (Server.new gs os gr).trace L (serverOps (streamPart (relayServer R))) = .ok (s, S))
    (hU : RelayUsers L oc .default op os gr A S) (hu : r.Unattended L gps r' I) :
    ∃ c' A' s' S', (Client.new gc oc).trace L (clientOps (streamPart (relayClient (R ++ I)))) = .ok (c', A ++ A') ∧
      (Server.new gs os gr).trace L (serverOps (streamPart (relayServer (R ++ I)))) = .ok (s', S ++ S') ∧
      (∀ i ∈ A', i.Automatic) ∧ (∀ i ∈ S', i.Automatic) ∧ RelayUsers L oc .default op os gr (A ++ A') (S ++ S') := by
  have ha := hu.attended
  obtain ⟨⟨c', X⟩, hx⟩ := Client.trace_safe hL (Client.new_inv L gc oc)
    (clientOps (streamPart (relayClient R)) ++ clientOps (streamPart (relayClient I)))
  obtain ⟨⟨s', Y⟩, hy⟩ := Server.trace_safe hL hO.usable (Server.new_inv L gs os gr)
    (serverOps (streamPart (relayServer R)) ++ serverOps (streamPart (relayServer I)))
  have kx := hx
  have ky := hy
  rw [Client.trace_append, hA] at hx
  rw [Server.trace_append, hS] at hy
  simp only at hx hy
  cases h1 : c.trace L (clientOps (streamPart (relayClient I))) with
  | error p => rw [h1] at hx; cases hx
  | ok x =>
    obtain ⟨c1, A'⟩ := x
    rw [h1] at hx
    cases hx
    cases h2 : s.trace L (serverOps (streamPart (relayServer I))) with
    | error p => rw [h2] at hy; cases hy
    | ok y =>
      obtain ⟨s1, S'⟩ := y
      rw [h2] at hy
      cases hy
      have g1 := Client.trace_automatic ha.client h1
      have g2 := Server.trace_automatic ha.server h2
      refine ⟨c', A', s', S', ?_, ?_, g1, g2, hU.automatic g1 g2 ky⟩
      · rw [relayClient_append, streamPart_append, clientOps_append]; exact kx
      · rw [relayServer_append, streamPart_append, serverOps_append]; exact ky

end ImapFlow
