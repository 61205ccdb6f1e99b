import Verif.Proofs.ProxySides
import Verif.Proofs.Relay
import Verif.Spec.RelayDialogue

/-!
# The calls of a stream, as a trace and on the plain system
-/

namespace ImapFlow

variable {K : Type} {L : Lib}


/-! ## Calls on a client -/

theorem clientOps_append (S S' : List (StreamItem ClientError ClientEvent ClientOp)) :
    clientOps (S ++ S') = clientOps S ++ clientOps S' := by
  simp [clientOps]

theorem Client.trace_one {c c' : Client} {op : ClientOp} {U : List CItem} (h : c.callTrace L op = .ok (c', U)) :
    c.trace L [op] = .ok (c', U) := by
  simp [Client.trace, h]

theorem Client.trace_join {c c1 c2 : Client} {ops ops' : List ClientOp} {U U' : List CItem}
    (h : c.trace L ops = .ok (c1, U)) (h' : c1.trace L ops' = .ok (c2, U')) :
    c.trace L (ops ++ ops') = .ok (c2, U ++ U') := by
  rw [Client.trace_append, h]; simp only; rw [h']

/-- A schedule of calls of the stream is the trace of these calls. -/
theorem client_net_trace {S : List (StreamItem ClientError ClientEvent ClientOp)} {n n' : Net} {X : List NItem} {rest : Bytes}
    (hin : n.toClient = streamDelivered S ++ rest)
    (ho : StreamItem.user .next ∉ S ∧ ∀ b, StreamItem.user (.enqueueInput b) ∉ S)
    (h : n.run L (S.flatMap fun i => StreamNetItem.calls (.client (.stream i))) = .ok (n', X)) :
    ∃ U, X = U.map .client ∧ n.client.trace L (clientOps S) = .ok (n'.client, U) := by
  induction S generalizing n X with
  | nil => cases h; exact ⟨[], rfl, rfl⟩
  | cons i S ih =>
    have ho' : StreamItem.user .next ∉ S ∧ ∀ b, StreamItem.user (.enqueueInput b) ∉ S :=
      ⟨fun h => ho.1 (List.mem_cons_of_mem _ h), fun b h => ho.2 b (List.mem_cons_of_mem _ h)⟩
    rw [List.flatMap_cons] at h
    have skip : StreamNetItem.calls (.client (.stream i)) = [] → streamDelivered (i :: S) = streamDelivered S →
        clientOps (i :: S) = clientOps S →
        ∃ U, X = U.map .client ∧ n.client.trace L (clientOps (i :: S)) = .ok (n'.client, U) := by
      intro h1 h2 h3
      rw [h1] at h
      rw [h3]
      exact ih (by rw [hin, h2]) ho' h
    have call : ∀ {op : ClientOp} {m : Net}, m.client = n.client → m.toClient = streamDelivered S ++ rest →
        (∀ n1 X1, n.run L (StreamNetItem.calls (.client (.stream i))) = .ok (n1, X1) → m.callClient L op = .ok (n1, X1)) →
        clientOps (i :: S) = op :: clientOps S →
        ∃ U, X = U.map .client ∧ n.client.trace L (clientOps (i :: S)) = .ok (n'.client, U) := by
      intro op m h1 h2 h3 h4
      rw [Net.run_append] at h
      cases hn : n.run L (StreamNetItem.calls (.client (.stream i))) with
      | error p => rw [hn] at h; cases h
      | ok x =>
        obtain ⟨n1, X1⟩ := x
        rw [hn] at h
        simp only at h
        cases hm : n1.run L (S.flatMap fun i => StreamNetItem.calls (.client (.stream i))) with
        | error p => rw [hm] at h; cases h
        | ok y =>
          obtain ⟨n2, X2⟩ := y
          rw [hm] at h
          simp only [Except.map, Except.ok.injEq, Prod.mk.injEq] at h
          obtain ⟨rfl, rfl⟩ := h
          have h5 := h3 _ _ hn
          unfold Net.callClient at h5
          cases hc : m.client.callTrace L op with
          | error p => rw [hc] at h5; cases h5
          | ok z =>
            obtain ⟨c1, U1⟩ := z
            rw [hc] at h5
            simp only [Except.ok.injEq, Prod.mk.injEq] at h5
            obtain ⟨rfl, rfl⟩ := h5
            obtain ⟨U2, rfl, h6⟩ := ih (n := { m with client := c1, toServer := m.toServer ++ clientOutput U1 }) h2 ho' hm
            refine ⟨U1 ++ U2, by simp, ?_⟩
            rw [h4]
            rw [h1] at hc
            exact Client.trace_join (Client.trace_one hc) h6
    have one : ∀ {op : NetOp} {n1 X1}, n.run L [op] = .ok (n1, X1) → n.step L op = .ok (n1, X1) := by
      intro op n1 X1 h
      unfold Net.run at h
      cases hs : n.step L op with
      | error p => rw [hs] at h; cases h
      | ok x =>
        rw [hs] at h
        simp only [Net.run, List.append_nil] at h
        exact h
    cases i with
    | user op =>
      refine call (op := op) (m := n) rfl (by rw [hin]; simp [streamDelivered]) (fun n1 X1 h1 => ?_) (by simp [clientOps])
      have h2 := one h1
      cases op with
      | next => exact (ho.1 (by simp)).elim
      | enqueueInput b => exact (ho.2 b (by simp)).elim
      | _ => exact h2
    | deliver b =>
      refine call (op := .enqueueInput b) (m := { n with toClient := n.toClient.drop b.length }) rfl
        (by rw [hin]; simp [streamDelivered]) (fun n1 X1 h1 => ?_) (by simp [clientOps])
      have h2 := one h1
      unfold Net.step at h2
      dsimp only at h2
      rw [show n.toClient.take b.length = b from (by rw [hin]; simp [streamDelivered])] at h2
      exact h2
    | poll r =>
      exact call (op := .next) (m := n) rfl (by rw [hin]; simp [streamDelivered]) (fun n1 X1 h1 => one h1) (by simp [clientOps])
    | _ => exact skip rfl (by simp [streamDelivered]) (by simp [clientOps])

/-- How a step of the stream, unless it is a call of the user, extends the trace of the client. -/
theorem client_called {P : Client → Prop} (hM : (clientMachine L).Safe P) {c c' : FullStream K Client} {a : StreamAct ClientOp}
    {T : List (FullItem ClientError ClientEvent ClientOp)} (hP : P c.state) (ha : ∀ op, a ≠ .user op)
    (h : c.step (clientMachine L) a = some (c', T)) :
    ∃ U, c.state.trace L (clientOps (streamPart T)) = .ok (c'.state, U) ∧
      (((∀ i ∈ U, i.Silent) ∧ Uneventful T) ∨
        ∃ pre i e, U = pre ++ [i] ∧ (∀ j ∈ pre, j.Silent) ∧ i.event? = some e ∧ Eventful T e) := by
  have provide : ∀ {b : Bytes} {s1 : Client} {D : List (StreamItem ClientError ClientEvent ClientOp)},
      Provides (clientMachine L) b c.state s1 D → P s1 ∧ ∃ U1, c.state.trace L (clientOps D) = .ok (s1, U1) ∧
        ∀ i ∈ U1, i.Silent := by
    intro b s1 D hD
    rcases hD with ⟨rfl, rfl, rfl⟩ | ⟨-, hD, rfl⟩
    · exact ⟨hP, [], rfl, by simp⟩
    · obtain ⟨s', h1, h2⟩ := hM.input b hP
      rw [hD] at h1
      cases h1
      refine ⟨h2, [.input b], ?_, by simp [CItem.Silent]⟩
      have hD : c.state.enqueueInput b = .ok s1 := hD
      simp [clientOps, Client.trace, Client.callTrace, hD, Except.map]
  have out : ∀ {i : StreamItem ClientError ClientEvent ClientOp}, i.Outside → clientOps [i] = [] := by
    intro i hi
    cases i <;> first | exact hi.elim | rfl
  cases FullStream.step_io ha h with
  | quiet _ hT hs hd hr =>
    refine ⟨[], ?_, .inl ⟨by simp, .of_outside hT⟩⟩
    have : clientOps (streamPart T) = [] := by
      unfold clientOps
      rw [List.filterMap_eq_nil_iff]
      intro i hi
      have := outside_part hT i hi
      cases i <;> first | exact this.elim | rfl
    rw [this, hs]; rfl
  | ended x e hx hs hd =>
    refine ⟨[], ?_, .inl ⟨by simp, .ended hx⟩⟩
    have : clientOps (streamPart [.stream x, .stream (.returned (.error e))]) = [] := by
      rw [show streamPart [.stream x, .stream (.returned (.error e))] = [x] ++ [.returned (.error e)] from rfl,
        clientOps_append, out hx]
      rfl
    rw [this, hs]; rfl
  | called x b D s1 r E _ hx hD hn hd hE hT hrd =>
    obtain ⟨-, U1, h1, h4⟩ := provide hD
    obtain ⟨ws, i, h5, h6⟩ := Client.next_trace (show s1.next L = .ok (c'.state, r) from hn)
    obtain ⟨-, -, g3⟩ := called_items hx hD hE hT
    have hcalls : clientOps (streamPart T) = clientOps D ++ [.next] := by
      rw [hT, streamPart_append, streamPart_map, clientOps_append,
        show x :: D ++ [StreamItem.poll r] = [x] ++ (D ++ [.poll r]) from rfl, clientOps_append, clientOps_append, out hx]
      have : clientOps (streamPart E) = [] := by
        rcases hE with rfl | ⟨-, rfl⟩
        · rw [streamPart_map]
          rcases r with (_ | e) | e <;> rfl
        · rfl
      rw [this]
      simp [clientOps]
    refine ⟨U1 ++ (ws.map .released ++ [i]), ?_, ?_⟩
    · rw [hcalls]
      exact Client.trace_join h1 (Client.trace_one h5)
    · have hpre : ∀ j ∈ U1 ++ ws.map CItem.released, j.Silent := by
        intro j hj
        rcases List.mem_append.mp hj with hj | hj
        · exact h4 j hj
        · obtain ⟨w, -, rfl⟩ := List.mem_map.mp hj; trivial
      rcases r with e | e
      · refine .inl ⟨?_, g3⟩
        intro j hj
        rw [← List.append_assoc] at hj
        rcases List.mem_append.mp hj with hj | hj
        · exact hpre j hj
        · rw [List.mem_singleton.mp hj]
          cases i <;> first | trivial | cases h6
      · refine .inr ⟨_, i, e, (List.append_assoc ..).symm, hpre, ?_, g3⟩
        cases i <;> cases h6 <;> rfl
  | inputPanic _ b p hp =>
    obtain ⟨s', h1, -⟩ := hM.input b hP
    rw [hp] at h1; cases h1
  | nextPanic _ b D s1 p hD hn =>
    obtain ⟨x, h1⟩ := hM.next (provide hD).1
    rw [hn] at h1; cases h1

namespace StreamNet

variable {paired : K → K → Prop}

/-- A step of the stream of the client. -/
theorem Tracks.clientCalled {P : Client → Prop} (hM : (clientMachine L).Safe P) {sn : StreamNet K} {n : Net}
    {c' : FullStream K Client} {act : SideAct ClientOp} {T : List (FullItem ClientError ClientEvent ClientOp)}
    (h : Tracks paired sn n) (hP : P n.client)
    (hst : sn.client.step (clientMachine L) (act.toStream sn.toClient) = some (c', T))
    (ha : act ≠ .user .next ∧ ∀ b, act ≠ .user (.enqueueInput b)) (hr : .refused ∉ T) :
    ∃ n' U, n.run L ((streamPart T).flatMap fun i => StreamNetItem.calls (.client (.stream i))) = .ok (n', U.map .client) ∧
      Tracks paired ⟨c', sn.server, sn.toServer ++ streamWrote (streamPart T), act.rest sn.toClient⟩ n' ∧
      n.client.trace L (clientOps (streamPart T)) = .ok (n'.client, U) ∧ ClientRecord (streamPart T) U := by
  have hin := h.toClient
  have hout := h.toServer
  rw [h.client] at hP
  obtain ⟨h1, -, h5, ⟨rest, h6, h7⟩, h8⟩ := FullStream.connected hM hst hP h.clientSound hin hout hr
  have huser : ∀ op, StreamItem.user op ∈ streamPart T → act = .user op := fun op hm => user_item hst hm
  have ho : StreamItem.user .next ∉ streamPart T ∧ ∀ b, StreamItem.user (.enqueueInput b) ∉ streamPart T :=
    ⟨fun hm => ha.1 (huser _ hm), fun b hm => ha.2 b (huser _ hm)⟩
  obtain ⟨U, u1, u2⟩ := client_items (L := L) (n := n) (S := streamPart T) (c' := c'.state) (rest := rest)
    (by rw [h.client]; exact h5) h6 ho
  obtain ⟨U', u3, u4⟩ := client_net_trace h6 ho u1
  obtain rfl : U = U' := by
    exact (List.map_inj_right fun a b h => by cases h; rfl).1 u3
  exact ⟨_, U, u1, ⟨rfl, h.server, h1, h.serverSound, h8, h7⟩, u4, u2⟩

end StreamNet


/-! ## Calls on a server -/

theorem serverOps_append (S S' : List (StreamItem ServerError ServerEvent ServerOp)) :
    serverOps (S ++ S') = serverOps S ++ serverOps S' := by
  simp [serverOps]

theorem Server.trace_one {c c' : Server} {op : ServerOp} {U : List SItem} (h : c.callTrace L op = .ok (c', U)) :
    c.trace L [op] = .ok (c', U) := by
  simp [Server.trace, h]

theorem Server.trace_join {c c1 c2 : Server} {ops ops' : List ServerOp} {U U' : List SItem}
    (h : c.trace L ops = .ok (c1, U)) (h' : c1.trace L ops' = .ok (c2, U')) :
    c.trace L (ops ++ ops') = .ok (c2, U ++ U') := by
  rw [Server.trace_append, h]; simp only; rw [h']

/-- A schedule of calls of the stream is the trace of these calls. -/
theorem server_net_trace {S : List (StreamItem ServerError ServerEvent ServerOp)} {n n' : Net} {X : List NItem} {rest : Bytes}
    (hin : n.toServer = streamDelivered S ++ rest)
    (ho : StreamItem.user .next ∉ S ∧ ∀ b, StreamItem.user (.enqueueInput b) ∉ S)
    (h : n.run L (S.flatMap fun i => StreamNetItem.calls (.server (.stream i))) = .ok (n', X)) :
    ∃ U, X = U.map .server ∧ n.server.trace L (serverOps S) = .ok (n'.server, U) := by
  induction S generalizing n X with
  | nil => cases h; exact ⟨[], rfl, rfl⟩
  | cons i S ih =>
    have ho' : StreamItem.user .next ∉ S ∧ ∀ b, StreamItem.user (.enqueueInput b) ∉ S :=
      ⟨fun h => ho.1 (List.mem_cons_of_mem _ h), fun b h => ho.2 b (List.mem_cons_of_mem _ h)⟩
    rw [List.flatMap_cons] at h
    have skip : StreamNetItem.calls (.server (.stream i)) = [] → streamDelivered (i :: S) = streamDelivered S →
        serverOps (i :: S) = serverOps S →
        ∃ U, X = U.map .server ∧ n.server.trace L (serverOps (i :: S)) = .ok (n'.server, U) := by
      intro h1 h2 h3
      rw [h1] at h
      rw [h3]
      exact ih (by rw [hin, h2]) ho' h
    have call : ∀ {op : ServerOp} {m : Net}, m.server = n.server → m.toServer = streamDelivered S ++ rest →
        (∀ n1 X1, n.run L (StreamNetItem.calls (.server (.stream i))) = .ok (n1, X1) → m.callServer L op = .ok (n1, X1)) →
        serverOps (i :: S) = op :: serverOps S →
        ∃ U, X = U.map .server ∧ n.server.trace L (serverOps (i :: S)) = .ok (n'.server, U) := by
      intro op m h1 h2 h3 h4
      rw [Net.run_append] at h
      cases hn : n.run L (StreamNetItem.calls (.server (.stream i))) with
      | error p => rw [hn] at h; cases h
      | ok x =>
        obtain ⟨n1, X1⟩ := x
        rw [hn] at h
        simp only at h
        cases hm : n1.run L (S.flatMap fun i => StreamNetItem.calls (.server (.stream i))) with
        | error p => rw [hm] at h; cases h
        | ok y =>
          obtain ⟨n2, X2⟩ := y
          rw [hm] at h
          simp only [Except.map, Except.ok.injEq, Prod.mk.injEq] at h
          obtain ⟨rfl, rfl⟩ := h
          have h5 := h3 _ _ hn
          unfold Net.callServer at h5
          cases hc : m.server.callTrace L op with
          | error p => rw [hc] at h5; cases h5
          | ok z =>
            obtain ⟨c1, U1⟩ := z
            rw [hc] at h5
            simp only [Except.ok.injEq, Prod.mk.injEq] at h5
            obtain ⟨rfl, rfl⟩ := h5
            obtain ⟨U2, rfl, h6⟩ := ih (n := { m with server := c1, toClient := m.toClient ++ serverOutput U1 }) h2 ho' hm
            refine ⟨U1 ++ U2, by simp, ?_⟩
            rw [h4]
            rw [h1] at hc
            exact Server.trace_join (Server.trace_one hc) h6
    have one : ∀ {op : NetOp} {n1 X1}, n.run L [op] = .ok (n1, X1) → n.step L op = .ok (n1, X1) := by
      intro op n1 X1 h
      unfold Net.run at h
      cases hs : n.step L op with
      | error p => rw [hs] at h; cases h
      | ok x =>
        rw [hs] at h
        simp only [Net.run, List.append_nil] at h
        exact h
    cases i with
    | user op =>
      refine call (op := op) (m := n) rfl (by rw [hin]; simp [streamDelivered]) (fun n1 X1 h1 => ?_) (by simp [serverOps])
      have h2 := one h1
      cases op with
      | next => exact (ho.1 (by simp)).elim
      | enqueueInput b => exact (ho.2 b (by simp)).elim
      | _ => exact h2
    | deliver b =>
      refine call (op := .enqueueInput b) (m := { n with toServer := n.toServer.drop b.length }) rfl
        (by rw [hin]; simp [streamDelivered]) (fun n1 X1 h1 => ?_) (by simp [serverOps])
      have h2 := one h1
      unfold Net.step at h2
      dsimp only at h2
      rw [show n.toServer.take b.length = b from (by rw [hin]; simp [streamDelivered])] at h2
      exact h2
    | poll r =>
      exact call (op := .next) (m := n) rfl (by rw [hin]; simp [streamDelivered]) (fun n1 X1 h1 => one h1) (by simp [serverOps])
    | _ => exact skip rfl (by simp [streamDelivered]) (by simp [serverOps])

/-- How a step of the stream, unless it is a call of the user, extends the trace of the server. -/
theorem server_called {P : Server → Prop} (hM : (serverMachine L).Safe P) {c c' : FullStream K Server} {a : StreamAct ServerOp}
    {T : List (FullItem ServerError ServerEvent ServerOp)} (hP : P c.state) (ha : ∀ op, a ≠ .user op)
    (h : c.step (serverMachine L) a = some (c', T)) :
    ∃ U, c.state.trace L (serverOps (streamPart T)) = .ok (c'.state, U) ∧
      (((∀ i ∈ U, i.Silent) ∧ Uneventful T) ∨
        ∃ pre i e, U = pre ++ [i] ∧ (∀ j ∈ pre, j.Silent) ∧ i.event? = some e ∧ Eventful T e) := by
  have provide : ∀ {b : Bytes} {s1 : Server} {D : List (StreamItem ServerError ServerEvent ServerOp)},
      Provides (serverMachine L) b c.state s1 D → P s1 ∧ ∃ U1, c.state.trace L (serverOps D) = .ok (s1, U1) ∧
        ∀ i ∈ U1, i.Silent := by
    intro b s1 D hD
    rcases hD with ⟨rfl, rfl, rfl⟩ | ⟨-, hD, rfl⟩
    · exact ⟨hP, [], rfl, by simp⟩
    · obtain ⟨s', h1, h2⟩ := hM.input b hP
      rw [hD] at h1
      cases h1
      refine ⟨h2, [.input b], ?_, by simp [SItem.Silent]⟩
      have hD : c.state.enqueueInput b = .ok s1 := hD
      simp [serverOps, Server.trace, Server.callTrace, hD, Except.map]
  have out : ∀ {i : StreamItem ServerError ServerEvent ServerOp}, i.Outside → serverOps [i] = [] := by
    intro i hi
    cases i <;> first | exact hi.elim | rfl
  cases FullStream.step_io ha h with
  | quiet _ hT hs hd hr =>
    refine ⟨[], ?_, .inl ⟨by simp, .of_outside hT⟩⟩
    have : serverOps (streamPart T) = [] := by
      unfold serverOps
      rw [List.filterMap_eq_nil_iff]
      intro i hi
      have := outside_part hT i hi
      cases i <;> first | exact this.elim | rfl
    rw [this, hs]; rfl
  | ended x e hx hs hd =>
    refine ⟨[], ?_, .inl ⟨by simp, .ended hx⟩⟩
    have : serverOps (streamPart [.stream x, .stream (.returned (.error e))]) = [] := by
      rw [show streamPart [.stream x, .stream (.returned (.error e))] = [x] ++ [.returned (.error e)] from rfl,
        serverOps_append, out hx]
      rfl
    rw [this, hs]; rfl
  | called x b D s1 r E _ hx hD hn hd hE hT hrd =>
    obtain ⟨-, U1, h1, h4⟩ := provide hD
    obtain ⟨W, i, h5, hW, h6⟩ := Server.next_trace (show s1.next L = .ok (c'.state, r) from hn)
    obtain ⟨-, -, g3⟩ := called_items hx hD hE hT
    have hcalls : serverOps (streamPart T) = serverOps D ++ [.next] := by
      rw [hT, streamPart_append, streamPart_map, serverOps_append,
        show x :: D ++ [StreamItem.poll r] = [x] ++ (D ++ [.poll r]) from rfl, serverOps_append, serverOps_append, out hx]
      have : serverOps (streamPart E) = [] := by
        rcases hE with rfl | ⟨-, rfl⟩
        · rw [streamPart_map]
          rcases r with (_ | e) | e <;> rfl
        · rfl
      rw [this]
      simp [serverOps]
    refine ⟨U1 ++ (W ++ [i]), ?_, ?_⟩
    · rw [hcalls]
      exact Server.trace_join h1 (Server.trace_one h5)
    · have hpre : ∀ j ∈ U1 ++ W, j.Silent := by
        intro j hj
        rcases List.mem_append.mp hj with hj | hj
        · exact h4 j hj
        · rcases hW j hj with rfl | ⟨p, rs, rfl⟩ <;> trivial
      rcases r with e | e
      · refine .inl ⟨?_, g3⟩
        intro j hj
        rw [← List.append_assoc] at hj
        rcases List.mem_append.mp hj with hj | hj
        · exact hpre j hj
        · rw [List.mem_singleton.mp hj]
          cases i <;> first | trivial | cases h6
      · refine .inr ⟨_, i, e, (List.append_assoc ..).symm, hpre, ?_, g3⟩
        cases i <;> cases h6 <;> rfl
  | inputPanic _ b p hp =>
    obtain ⟨s', h1, -⟩ := hM.input b hP
    rw [hp] at h1; cases h1
  | nextPanic _ b D s1 p hD hn =>
    obtain ⟨x, h1⟩ := hM.next (provide hD).1
    rw [hn] at h1; cases h1

namespace StreamNet

variable {paired : K → K → Prop}

/-- A step of the stream of the server. -/
theorem Tracks.serverCalled {P : Server → Prop} (hM : (serverMachine L).Safe P) {sn : StreamNet K} {n : Net}
    {c' : FullStream K Server} {act : SideAct ServerOp} {T : List (FullItem ServerError ServerEvent ServerOp)}
    (h : Tracks paired sn n) (hP : P n.server)
    (hst : sn.server.step (serverMachine L) (act.toStream sn.toServer) = some (c', T))
    (ha : act ≠ .user .next ∧ ∀ b, act ≠ .user (.enqueueInput b)) (hr : .refused ∉ T) :
    ∃ n' U, n.run L ((streamPart T).flatMap fun i => StreamNetItem.calls (.server (.stream i))) = .ok (n', U.map .server) ∧
      Tracks paired ⟨sn.client, c', act.rest sn.toServer, sn.toClient ++ streamWrote (streamPart T)⟩ n' ∧
      n.server.trace L (serverOps (streamPart T)) = .ok (n'.server, U) ∧ ServerRecord (streamPart T) U := by
  have hin := h.toServer
  have hout := h.toClient
  rw [h.server] at hP
  obtain ⟨h1, -, h5, ⟨rest, h6, h7⟩, h8⟩ := FullStream.connected hM hst hP h.serverSound hin hout hr
  have huser : ∀ op, StreamItem.user op ∈ streamPart T → act = .user op := fun op hm => user_item hst hm
  have ho : StreamItem.user .next ∉ streamPart T ∧ ∀ b, StreamItem.user (.enqueueInput b) ∉ streamPart T :=
    ⟨fun hm => ha.1 (huser _ hm), fun b hm => ha.2 b (huser _ hm)⟩
  obtain ⟨U, u1, u2⟩ := server_items (L := L) (n := n) (S := streamPart T) (c' := c'.state) (rest := rest)
    (by rw [h.server]; exact h5) h6 ho
  obtain ⟨U', u3, u4⟩ := server_net_trace h6 ho u1
  obtain rfl : U = U' := by
    exact (List.map_inj_right fun a b h => by cases h; rfl).1 u3
  exact ⟨_, U, u1, ⟨h.client, rfl, h.clientSound, h1, h7, h8⟩, u4, u2⟩

end StreamNet

end ImapFlow
