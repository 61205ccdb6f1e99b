import Verif.Proofs.Proxy
import Verif.Proofs.StreamNetWait

/-!
# A step of the proxy as steps of its two streams
-/

namespace ImapFlow

variable {K : Type} {L : Lib}

/-- A call of a user that is not left to the stream. -/
def ClientOp.Allowed (op : ClientOp) : Prop := op ≠ .next ∧ ∀ b, op ≠ .enqueueInput b

/-- A call of a user that is not left to the stream. -/
def ServerOp.Allowed (op : ServerOp) : Prop := op ≠ .next ∧ ∀ b, op ≠ .enqueueInput b

/-- Nothing happens on the socket: a future is dropped, or the owner calls a method. -/
def SideAct.Passing {ι : Type} (P : ι → Prop) : SideAct ι → Prop
  | .drop => True
  | .user op => P op
  | _ => False

theorem FullStream.dropFuture_run {σ ε ev ι : Type} (M : Machine σ ε ev ι) {c : FullStream K σ} (P : ι → Prop)
    (hd : c.ctl ≠ .at .dead) (hl : c.Live) :
    ∃ acts : List (SideAct ι), ∃ c' D, c.dropFuture = (c', D) ∧ c.run M (acts.map (·.toStream [])) = some (c', D) ∧
      c'.ctl = .at .idle ∧ c'.state = c.state ∧ ∀ a ∈ acts, a.Passing P := by
  obtain ⟨t, rb, wb, st, ctl⟩ := c
  rcases ctl with ctl | _ | _
  · cases ctl with
    | idle => exact ⟨[], _, _, rfl, rfl, rfl, rfl, nofun⟩
    | dead => exact (hd rfl).elim
    | reading => exact ⟨[.drop], _, _, rfl, rfl, rfl, rfl, by simp [SideAct.Passing]⟩
    | racing => exact ⟨[.drop], _, _, rfl, rfl, rfl, rfl, by simp [SideAct.Passing]⟩
    | flushing => exact ⟨[.drop], _, _, rfl, rfl, rfl, rfl, by simp [SideAct.Passing]⟩
  · exact (hl.1 rfl).elim
  · exact (hl.2 rfl).elim

theorem handleClientEvent_calls {r : Except (StreamError ServerError) ServerEvent} {st st' : Client} {calls : List ClientOp}
    {flow : ControlFlow} (h : handleClientEvent L r st = .ok (st', calls, flow)) :
    (calls = [] ∧ st' = st) ∨ ∃ op : ClientOp, calls = [op] ∧ op.Allowed ∧ (clientMachine L).user st op = .ok st' := by
  have one : ∀ op : ClientOp, calls = [op] → op.Allowed → (clientMachine L).user st op = .ok st' →
      (calls = [] ∧ st' = st) ∨ ∃ op : ClientOp, calls = [op] ∧ op.Allowed ∧ (clientMachine L).user st op = .ok st' :=
    fun op h1 h2 h3 => .inr ⟨op, h1, h2, h3⟩
  cases r with
  | error e => cases e <;> cases h <;> exact .inl ⟨rfl, rfl⟩
  | ok e =>
    cases e with
    | greetingSent | responseSent => cases h; exact .inl ⟨rfl, rfl⟩
    | commandReceived | commandAuthenticateReceived | idleCommandReceived =>
      cases h; exact one _ rfl ⟨nofun, nofun⟩ rfl
    | authenticateDataReceived d =>
      simp only [handleClientEvent] at h
      cases he : st.setAuthenticateData L d with
      | error p => rw [he] at h; cases h
      | ok x =>
        obtain ⟨c, r⟩ := x
        rw [he] at h
        cases r with
        | error e => cases h
        | ok u =>
          cases h
          exact one _ rfl ⟨nofun, nofun⟩ (by simp [clientMachine, Client.call, he, Except.map])
    | idleDoneReceived =>
      simp only [handleClientEvent] at h
      cases he : st.setIdleDone L with
      | error p => rw [he] at h; cases h
      | ok x =>
        obtain ⟨c, r⟩ := x
        rw [he] at h
        cases h
        exact one _ rfl ⟨nofun, nofun⟩ (by simp [clientMachine, Client.call, he, Except.map])

theorem handleServerEvent_calls {r : Except (StreamError ClientError) ClientEvent} {st st' : Server} {calls : List ServerOp}
    {flow : ControlFlow} (h : handleServerEvent L r st = .ok (st', calls, flow)) :
    (calls = [] ∧ st' = st) ∨ ∃ op : ServerOp, calls = [op] ∧ op.Allowed ∧ (serverMachine L).user st op = .ok st' := by
  have one : ∀ op : ServerOp, calls = [op] → op.Allowed → (serverMachine L).user st op = .ok st' →
      (calls = [] ∧ st' = st) ∨ ∃ op : ServerOp, calls = [op] ∧ op.Allowed ∧ (serverMachine L).user st op = .ok st' :=
    fun op h1 h2 h3 => .inr ⟨op, h1, h2, h3⟩
  cases r with
  | error e => cases e <;> cases h <;> exact .inl ⟨rfl, rfl⟩
  | ok e =>
    cases e with
    | greetingReceived | commandSent | authenticateStarted | idleCommandSent | idleDoneSent => cases h; exact .inl ⟨rfl, rfl⟩
    | dataReceived | statusReceived => cases h; exact one _ rfl ⟨nofun, nofun⟩ rfl
    | commandRejected hd c status =>
      simp only [handleServerEvent] at h
      cases he : modifiedStatus L c status with
      | error p => rw [he] at h; cases h
      | ok x => rw [he] at h; cases h; exact one _ rfl ⟨nofun, nofun⟩ rfl
    | continuationRequestReceived q =>
      simp only [handleServerEvent] at h
      cases he : filterCapabilitiesInContinuation L q with
      | error p => rw [he] at h; cases h
      | ok x => rw [he] at h; cases h; exact one _ rfl ⟨nofun, nofun⟩ rfl
    | authenticateContinuationRequestReceived hd q =>
      simp only [handleServerEvent] at h
      cases he : st.authenticateContinue q with
      | mk c r =>
        rw [he] at h
        cases r with
        | error e => cases h
        | ok u =>
          cases h
          exact one _ rfl ⟨nofun, nofun⟩ (by simp [serverMachine, Server.call, he, Except.map])
    | authenticateStatusReceived hd a status =>
      simp only [handleServerEvent] at h
      cases he : st.authenticateFinish status with
      | error p => rw [he] at h; cases h
      | ok x =>
        obtain ⟨c, r⟩ := x
        rw [he] at h
        cases r with
        | error e => cases h
        | ok u =>
          cases h
          exact one _ rfl ⟨nofun, nofun⟩ (by simp [serverMachine, Server.call, he, Except.map])
    | idleAccepted hd q =>
      simp only [handleServerEvent] at h
      cases he : st.idleAccept q with
      | error p => rw [he] at h; cases h
      | ok x =>
        obtain ⟨c, r⟩ := x
        rw [he] at h
        cases r with
        | error e => cases h
        | ok u =>
          cases h
          exact one _ rfl ⟨nofun, nofun⟩ (by simp [serverMachine, Server.call, he, Except.map])
    | idleRejected hd status =>
      simp only [handleServerEvent] at h
      cases he : st.idleReject status with
      | error p => rw [he] at h; cases h
      | ok x =>
        obtain ⟨c, r⟩ := x
        rw [he] at h
        cases r with
        | error e => cases h
        | ok u =>
          cases h
          exact one _ rfl ⟨nofun, nofun⟩ (by simp [serverMachine, Server.call, he, Except.map])

/-- The branch of the client completes. -/
theorem Proxy.clientBranch_sides {c : FullStream K Server} {s : FullStream K Client}
    {r : Except (StreamError ServerError) ServerEvent} {p : Proxy K} {T : List ProxyItem}
    (h : Proxy.clientBranch L c s r = (p, T)) (hd : s.ctl ≠ .at .dead) (hl : s.Live) :
    ∃ (s' : FullStream K Client) (acts : List (SideAct ClientOp)),
      s.run (clientMachine L) (acts.map (·.toStream [])) = some (s', serverFull T) ∧ clientFull T = [] ∧
      (∀ a ∈ acts, a.Passing ClientOp.Allowed) ∧ (p = .conversation c s' ∨ p = .over ∨ p = .dead) := by
  obtain ⟨acts, s1, D, h1, h2, h3, h4, h5⟩ := FullStream.dropFuture_run (clientMachine L) ClientOp.Allowed hd hl
  simp only [Proxy.clientBranch, h1, h4] at h
  cases he : handleClientEvent L r s.state with
  | error e =>
    rw [he] at h
    cases h
    refine ⟨s1, acts, ?_, ?_, h5, .inr (.inr rfl)⟩
    · rw [serverFull_append, serverFull_server, h2]; simp [serverFull, ProxyItem.serverFull?]
    · rw [clientFull_append, clientFull_server]; rfl
  | ok x =>
    obtain ⟨st', calls, flow⟩ := x
    rw [he] at h
    have key : ∃ acts', ({ s1 with state := st' } : FullStream K Client) = { s1 with state := st' } ∧
        s.run (clientMachine L) ((acts ++ acts').map (·.toStream [])) =
          some ({ s1 with state := st' }, serverFull (D.map ProxyItem.ofServer ++ calls.map fun op => .server (.user op))) ∧
        (∀ a ∈ acts', a.Passing ClientOp.Allowed) ∧
        clientFull (D.map ProxyItem.ofServer ++ calls.map fun op => .server (.user op)) = [] := by
      rcases handleClientEvent_calls he with ⟨rfl, rfl⟩ | ⟨op, rfl, ho, hu⟩
      · refine ⟨[], rfl, ?_, nofun, ?_⟩
        · rw [List.append_nil, List.map_nil, List.append_nil, serverFull_server, h2, ← h4]
        · rw [List.map_nil, List.append_nil, clientFull_server]
      · refine ⟨[.user op], rfl, ?_, by simpa [SideAct.Passing] using ho, ?_⟩
        · rw [serverFull_append, serverFull_server, List.map_append, FullStream.run_append, h2]
          simp [FullStream.run, SideAct.toStream, FullStream.step, h3, h4, hu, serverFull, ProxyItem.serverFull?]
        · rw [clientFull_append, clientFull_server]; rfl
    obtain ⟨acts', -, k1, k2, k3⟩ := key
    have hall : ∀ a ∈ acts ++ acts', a.Passing ClientOp.Allowed := by
      intro a ha
      rcases List.mem_append.1 ha with ha | ha
      · exact h5 a ha
      · exact k2 a ha
    cases flow with
    | abort => cases h; exact ⟨_, _, k1, k3, hall, .inr (.inl rfl)⟩
    | «continue» => cases h; exact ⟨_, _, k1, k3, hall, .inl rfl⟩

/-- The branch of the server completes. -/
theorem Proxy.serverBranch_sides {c : FullStream K Server} {s : FullStream K Client}
    {r : Except (StreamError ClientError) ClientEvent} {p : Proxy K} {T : List ProxyItem}
    (h : Proxy.serverBranch L c s r = (p, T)) (hd : c.ctl ≠ .at .dead) (hl : c.Live) :
    ∃ (c' : FullStream K Server) (acts : List (SideAct ServerOp)),
      c.run (serverMachine L) (acts.map (·.toStream [])) = some (c', clientFull T) ∧ serverFull T = [] ∧
      (∀ a ∈ acts, a.Passing ServerOp.Allowed) ∧ (p = .conversation c' s ∨ p = .over ∨ p = .dead) := by
  obtain ⟨acts, s1, D, h1, h2, h3, h4, h5⟩ := FullStream.dropFuture_run (serverMachine L) ServerOp.Allowed hd hl
  simp only [Proxy.serverBranch, h1, h4] at h
  cases he : handleServerEvent L r c.state with
  | error e =>
    rw [he] at h
    cases h
    refine ⟨s1, acts, ?_, ?_, h5, .inr (.inr rfl)⟩
    · rw [clientFull_append, clientFull_client, h2]; simp [clientFull, ProxyItem.clientFull?]
    · rw [serverFull_append, serverFull_client]; rfl
  | ok x =>
    obtain ⟨st', calls, flow⟩ := x
    rw [he] at h
    have key : ∃ acts', c.run (serverMachine L) ((acts ++ acts').map (·.toStream [])) =
          some ({ s1 with state := st' }, clientFull (D.map ProxyItem.ofClient ++ calls.map fun op => .client (.user op))) ∧
        (∀ a ∈ acts', a.Passing ServerOp.Allowed) ∧
        serverFull (D.map ProxyItem.ofClient ++ calls.map fun op => .client (.user op)) = [] := by
      rcases handleServerEvent_calls he with ⟨rfl, rfl⟩ | ⟨op, rfl, ho, hu⟩
      · refine ⟨[], ?_, nofun, ?_⟩
        · rw [List.append_nil, List.map_nil, List.append_nil, clientFull_client, h2, ← h4]
        · rw [List.map_nil, List.append_nil, serverFull_client]
      · refine ⟨[.user op], ?_, by simpa [SideAct.Passing] using ho, ?_⟩
        · rw [clientFull_append, clientFull_client, List.map_append, FullStream.run_append, h2]
          simp [FullStream.run, SideAct.toStream, FullStream.step, h3, h4, hu, clientFull, ProxyItem.clientFull?]
        · rw [serverFull_append, serverFull_client]; rfl
    obtain ⟨acts', k1, k2, k3⟩ := key
    have hall : ∀ a ∈ acts ++ acts', a.Passing ServerOp.Allowed := by
      intro a ha
      rcases List.mem_append.1 ha with ha | ha
      · exact h5 a ha
      · exact k2 a ha
    cases flow with
    | abort => cases h; exact ⟨_, _, k1, k3, hall, .inr (.inl rfl)⟩
    | «continue» => cases h; exact ⟨_, _, k1, k3, hall, .inl rfl⟩

/-- The proxy has ended, in one way or another. -/
def Proxy.Ended : Proxy K → Prop
  | .over | .hung | .dead => True
  | _ => False

/-- A step on the connection to the client. -/
theorem Proxy.step_client_sides {g : HandleGenerator} {c : FullStream K Server} {s : FullStream K Client} {act : IoAct}
    {p : Proxy K} {T : List ProxyItem} (h : (Proxy.conversation c s).step L g (.client act) = some (p, T))
    (hd : s.ctl ≠ .at .dead) (hl : s.Live) :
    ∃ (c' : FullStream K Server) (s' : FullStream K Client) (acts : List (SideAct ClientOp)),
      c.step (serverMachine L) act.toStream = some (c', clientFull T) ∧
      s.run (clientMachine L) (acts.map (·.toStream [])) = some (s', serverFull T) ∧
      (∀ a ∈ acts, a.Passing ClientOp.Allowed) ∧ (p = .conversation c' s' ∨ p.Ended) := by
  simp only [Proxy.step] at h
  cases hs : c.step (serverMachine L) act.toStream with
  | none => rw [hs] at h; cases h
  | some x =>
    obtain ⟨c', I⟩ := x
    rw [hs] at h
    simp only at h
    split at h
    · cases h
      exact ⟨c', s, [], by rw [clientFull_client], by rw [serverFull_client]; rfl, nofun, .inr trivial⟩
    · split at h
      · cases h
        exact ⟨c', s, [], by rw [clientFull_client], by rw [serverFull_client]; rfl, nofun, .inr trivial⟩
      · split at h
        · cases h
          exact ⟨c', s, [], by rw [clientFull_client], by rw [serverFull_client]; rfl, nofun, .inl rfl⟩
        · rename_i r hr
          cases hb : Proxy.clientBranch L c' s r with
          | mk p' T' =>
            rw [hb] at h
            cases h
            obtain ⟨s', acts, h1, h2, h3, h4⟩ := Proxy.clientBranch_sides hb hd hl
            refine ⟨c', s', acts, ?_, ?_, h3, ?_⟩
            · rw [clientFull_append, clientFull_client, h2, List.append_nil]
            · rw [serverFull_append, serverFull_client, List.nil_append, h1]
            · rcases h4 with h4 | rfl | rfl
              · exact .inl h4
              · exact .inr trivial
              · exact .inr trivial

/-- A step on the connection to the server. -/
theorem Proxy.step_server_sides {g : HandleGenerator} {c : FullStream K Server} {s : FullStream K Client} {act : IoAct}
    {p : Proxy K} {T : List ProxyItem} (h : (Proxy.conversation c s).step L g (.server act) = some (p, T))
    (hd : c.ctl ≠ .at .dead) (hl : c.Live) :
    ∃ (c' : FullStream K Server) (s' : FullStream K Client) (acts : List (SideAct ServerOp)),
      s.step (clientMachine L) act.toStream = some (s', serverFull T) ∧
      c.run (serverMachine L) (acts.map (·.toStream [])) = some (c', clientFull T) ∧
      (∀ a ∈ acts, a.Passing ServerOp.Allowed) ∧ (p = .conversation c' s' ∨ p.Ended) := by
  simp only [Proxy.step] at h
  cases hs : s.step (clientMachine L) act.toStream with
  | none => rw [hs] at h; cases h
  | some x =>
    obtain ⟨s', I⟩ := x
    rw [hs] at h
    simp only at h
    split at h
    · cases h
      exact ⟨c, s', [], by rw [serverFull_server], by rw [clientFull_server]; rfl, nofun, .inr trivial⟩
    · split at h
      · cases h
        exact ⟨c, s', [], by rw [serverFull_server], by rw [clientFull_server]; rfl, nofun, .inr trivial⟩
      · split at h
        · cases h
          exact ⟨c, s', [], by rw [serverFull_server], by rw [clientFull_server]; rfl, nofun, .inl rfl⟩
        · rename_i r hr
          cases hb : Proxy.serverBranch L c s' r with
          | mk p' T' =>
            rw [hb] at h
            cases h
            obtain ⟨c', acts, h1, h2, h3, h4⟩ := Proxy.serverBranch_sides hb hd hl
            refine ⟨c', s', acts, ?_, ?_, h3, ?_⟩
            · rw [serverFull_append, serverFull_server, h2, List.append_nil]
            · rw [clientFull_append, clientFull_server, List.nil_append, h1]
            · rcases h4 with h4 | rfl | rfl
              · exact .inl h4
              · exact .inr trivial
              · exact .inr trivial

theorem nextResult_event {ε ev ι : Type} {I : List (FullItem ε ev ι)} {e : ev} (h : nextResult I = some (.ok e)) :
    e ∈ streamEvents (streamPart I) := by
  unfold nextResult at h
  obtain ⟨a, ha, h⟩ := List.exists_of_findSome?_eq_some h
  rcases a with i | _ | _ | _ <;> try (cases h; done)
  cases i with
  | returned r =>
    simp at h
    subst h
    exact List.mem_filterMap.2 ⟨_, List.mem_filterMap.2 ⟨_, ha, rfl⟩, rfl⟩
  | _ => simp at h

/-- A step before the conversation. -/
theorem Proxy.step_greeting_sides {g : HandleGenerator} {t : Option (Tls K)} {s : FullStream K Client} {act : IoAct}
    {p : Proxy K} {T : List ProxyItem} (h : (Proxy.greeting t s).step L g (.server act) = some (p, T)) :
    ∃ s' : FullStream K Client,
      s.step (clientMachine L) act.toStream = some (s', serverFull T) ∧ clientFull T = [] ∧
      (p = .greeting t s' ∨ p.Ended ∨ ∃ o gr, proxyServerOptions L = .ok o ∧
        .greetingReceived gr ∈ streamEvents (serverSide T) ∧
        p = .conversation (.new t (Server.new g o gr.restrict)) s') := by
  simp only [Proxy.step] at h
  cases hs : s.step (clientMachine L) act.toStream with
  | none => rw [hs] at h; cases h
  | some x =>
    obtain ⟨s', I⟩ := x
    rw [hs] at h
    simp only at h
    split at h
    · cases h
      exact ⟨s', by rw [serverFull_server], clientFull_server _, .inr (.inl trivial)⟩
    · split at h
      · cases h
        exact ⟨s', by rw [serverFull_server], clientFull_server _, .inr (.inl trivial)⟩
      · split at h
        · cases h
          exact ⟨s', by rw [serverFull_server], clientFull_server _, .inl rfl⟩
        · rename_i r hr
          cases r with
          | error e =>
            cases h
            exact ⟨s', by rw [serverFull_server], clientFull_server _, .inr (.inl trivial)⟩
          | ok e =>
            have hm := nextResult_event hr
            cases e with
            | greetingReceived gr =>
              simp only [Proxy.afterGreeting] at h
              cases ho : proxyServerOptions L with
              | error p =>
                rw [ho] at h
                cases h
                refine ⟨s', by rw [serverFull_append, serverFull_server]; simp [serverFull, ProxyItem.serverFull?], ?_, .inr (.inl trivial)⟩
                rw [clientFull_append, clientFull_server]; rfl
              | ok o =>
                rw [ho] at h
                cases h
                refine ⟨s', by rw [serverFull_server], clientFull_server _, .inr (.inr ⟨o, gr, rfl, ?_, ?_⟩)⟩
                · rw [serverSide_server]; exact hm
                · rw [filterCapabilitiesInGreeting_eq]
            | _ => cases h; exact ⟨s', by rw [serverFull_server], clientFull_server _, .inr (.inl trivial)⟩

end ImapFlow
