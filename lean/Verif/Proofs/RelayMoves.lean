import Verif.Proofs.Backlog
import Verif.Proofs.RelayBound
import Verif.Proofs.StreamRest
import Verif.Spec.RelayRest

/-!
# Steps without users on the connections of the proxy
-/

namespace ImapFlow

variable {K : Type} {paired : K → K → Prop} {L : Lib}

/-! ## Results -/

section
variable {σ ε ev ι : Type}

/-- If `next` returns, it got a result from the state. -/
theorem FullStream.Advanced.result {M : Machine σ ε ev ι} {c c' : FullStream K σ} {T : List (FullItem ε ev ι)}
    (h : Advanced M c c' T) (hr : .refused ∉ T) (ha : c'.ctl ≠ .at .dead ∧ c'.ctl ≠ .hung ∧ c'.ctl ≠ .broken)
    {r : Except (StreamError ε) ev} (hn : nextResult T = some r) :
    ∃ q, StreamItem.poll q ∈ streamPart T ∧ q ≠ .error (.io .needMoreInput) ∧ ∀ e, r = .ok e → q = .ok e := by
  have hD : ∀ {b s s1} {D : List (StreamItem ε ev ι)}, Provides M b s s1 D → ∀ i ∈ D, ∀ r, i ≠ .returned r := by
    rintro b s s1 D (⟨-, -, rfl⟩ | ⟨-, -, rfl⟩) <;> simp
  cases h with
  | hung h1 h2 h3 => subst h3; exact absurd rfl ha.2.1
  | broken h1 h2 h3 => subst h3; exact absurd rfl ha.2.2
  | inputPanic h1 h2 h3 => subst h3; exact absurd rfl ha.1
  | nextPanic h1 h2 h3 h4 => subst h4; exact absurd rfl ha.1
  | @returned _ _ _ D _ _ q h1 h2 h3 h4 h5 =>
    refine ⟨q, by rw [streamPart_map]; simp, h4 _, ?_⟩
    rintro e rfl
    rw [List.map_append, nextResult_map (hD h2), List.map_cons, nextResult_cons (by simp)] at hn
    cases q with
    | ok e' => simp [returns, nextResult] at hn; rw [hn]
    | error i =>
      cases i with
      | io io => exact absurd rfl (h4 io)
      | error e' => simp [returns, nextResult] at hn
  | @waits _ _ _ D _ _ io c1 h1 h2 h3 h4 h5 =>
    rw [List.map_append, nextResult_map (hD h2)] at hn
    simp [nextResult] at hn
  | refused h1 h2 h3 h4 h5 => simp at hr

theorem FullStream.step_result {M : Machine σ ε ev ι} {c c' : FullStream K σ} {act : SideAct ι} {wire : Bytes}
    {T : List (FullItem ε ev ι)} (h : c.step M (act.toStream wire) = some (c', T)) (hi : act.Internal wire)
    (hr : .refused ∉ T) (ha : c'.ctl ≠ .at .dead ∧ c'.ctl ≠ .hung ∧ c'.ctl ≠ .broken)
    {r : Except (StreamError ε) ev} (hn : nextResult T = some r) :
    ∃ q, StreamItem.poll q ∈ streamPart T ∧ q ≠ .error (.io .needMoreInput) ∧ ∀ e, r = .ok e → q = .ok e := by
  have key : ∀ {c1 : FullStream K σ} {x : StreamItem ε ev ι}, (∀ r, x ≠ .returned r) → c' = (c1.advance M).1 →
      T = .stream x :: (c1.advance M).2 →
      ∃ q, StreamItem.poll q ∈ streamPart T ∧ q ≠ .error (.io .needMoreInput) ∧ ∀ e, r = .ok e → q = .ok e := by
    rintro c1 x hx rfl rfl
    rw [nextResult_cons hx] at hn
    obtain ⟨q, h1, h2⟩ := (advance_cases M c1).result (fun hm => hr (List.mem_cons_of_mem _ hm)) ha hn
    exact ⟨q, by rw [streamPart_cons]; exact List.mem_cons_of_mem _ h1, h2⟩
  cases act with
  | user op => exact hi.elim
  | callFlush => exact hi.elim
  | fail => exact hi.elim
  | drop => exact hi.elim
  | callNext =>
    simp only [SideAct.toStream, FullStream.step] at h
    split at h
    · cases h; exact key (by simp) rfl rfl
    · cases h
  | read k =>
    obtain ⟨hk, hw⟩ := hi
    have hb : ¬ (wire.take k).length = 0 := by
      cases wire with
      | nil => exact absurd rfl hw
      | cons x w => cases k with
        | zero => omega
        | succ k => simp
    have hx : c' = (c.completeRead M (wire.take k)).1 ∧ T = (c.completeRead M (wire.take k)).2 := by
      simp only [SideAct.toStream, FullStream.step] at h
      split at h <;> first | (cases h; done) | (injection h with h; rw [h]; exact ⟨rfl, rfl⟩)
    unfold completeRead at hx
    simp only [hb, if_false] at hx
    exact key (by simp) hx.1 hx.2
  | write k =>
    have hk : 0 < k := hi
    simp only [SideAct.toStream, FullStream.step] at h
    split at h
    · split at h
      · injection h with h
        unfold completeWrite at h
        have hk0 : k ≠ 0 := by omega
        simp only [hk0, if_false] at h
        split at h
        · cases h; exact key (by simp) rfl rfl
        · cases h; simp [nextResult] at hn
      · injection h with h
        unfold completeFlush at h
        have hk0 : k ≠ 0 := by omega
        simp only [hk0, if_false] at h
        split at h
        · cases h; simp [nextResult] at hn
        · cases h; simp [nextResult] at hn
      · cases h
    · cases h

end

/-! ## Moves of one connection -/

namespace StreamNet

variable {gc gs : HandleGenerator} {oc : ClientOptions} {os : ServerOptions} {gr : Greeting} {n : Net} {T : List NItem}
  {sn sn' : StreamNet K} {ops : List NetOp} {G : List StreamNetItem}

/-- Lighter, or as heavy and with less to do on the sockets. -/
def Less (L : Lib) (sn' : StreamNet K) (n' : Net) (sn : StreamNet K) (n : Net) : Prop :=
  Net.Lighter (n'.weight L) (n.weight L) ∨
    (n'.weight L = n.weight L ∧ (sn'.bytes < sn.bytes ∨ (sn'.bytes = sn.bytes ∧ sn'.idles < sn.idles)))

theorem Tracks.moved (hL : L.Lawful) (hO : ServerOptions.Built L os) (hmax : 0 < os.maxCommandSize)
    (hn : (Net.new gc oc gs os gr).run L ops = .ok (n, T)) (h : Tracks paired sn n) (hm : sn.Moves L sn' G)
    (hr : .client .refused ∉ G ∧ .server .refused ∉ G) :
    ∃ n' U, n.run L (G.flatMap StreamNetItem.calls) = .ok (n', U) ∧ Tracks paired sn' n' ∧
      ClientRecord (atClient G) (clientItems U) ∧ ServerRecord (atServer G) (serverItems U) ∧ Less L sn' n' sn n ∧
      (∀ r, r ≠ .error (.io .needMoreInput) → .poll r ∈ atClient G → Net.Lighter (n'.weight L) (n.weight L)) ∧
      (∀ r, r ≠ .error (.io .needMoreInput) → .poll r ∈ atServer G → Net.Lighter (n'.weight L) (n.weight L)) := by
  have hint := calls_internal hm
  obtain ⟨n1, T1, m1, -, m3⟩ := h.moves hL hO hmax hn hm hr
  obtain ⟨a, hi, hs⟩ := hm
  obtain ⟨n', U, k1, k2, k3, k4, -⟩ := Tracks.run hL hO hn h (as := [a]) (sn' := sn') (G := G)
    (by simp [StreamNet.run, hs]) hr
  have hn' : (Net.new gc oc gs os gr).run L (ops ++ G.flatMap StreamNetItem.calls) = .ok (n', T ++ U) := by
    rw [Net.run_append, hn]
    simp [k1, Except.map]
  rw [hn'] at m1
  injection m1 with m1
  obtain rfl : n' = n1 := congrArg Prod.fst m1
  refine ⟨n', U, k1, k2, k3, k4, m3, ?_, ?_⟩
  · intro r hne hp
    rcases (Net.run_linked hn).run_idle hL hmax hint k1 with hl | ⟨-, h1, -⟩
    · exact hl
    · rw [k3.results] at h1
      exact absurd (h1 r (List.mem_filterMap.2 ⟨_, hp, rfl⟩)) hne
  · intro r hne hp
    rcases (Net.run_linked hn).run_idle hL hmax hint k1 with hl | ⟨-, -, h1⟩
    · exact hl
    · rw [k4.results] at h1
      exact absurd (h1 r (List.mem_filterMap.2 ⟨_, hp, rfl⟩)) hne

/-- What the move is to the client and to the server. -/
theorem Tracks.clientMoved (hL : L.Lawful) (hO : ServerOptions.Built L os) (hmax : 0 < os.maxCommandSize)
    (hn : (Net.new gc oc gs os gr).run L ops = .ok (n, T)) (h : Tracks paired sn n) {act : SideAct ClientOp}
    (hi : act.Internal sn.toClient) {c' : FullStream K Client} {V : List (FullItem ClientError ClientEvent ClientOp)}
    (hs : sn.client.step (clientMachine L) (act.toStream sn.toClient) = some (c', V)) (hr : .refused ∉ V) :
    ∃ n' ops' T', (Net.new gc oc gs os gr).run L ops' = .ok (n', T') ∧
      Tracks paired ⟨c', sn.server, sn.toServer ++ streamWrote (streamPart V), act.rest sn.toClient⟩ n' ∧
      Less L ⟨c', sn.server, sn.toServer ++ streamWrote (streamPart V), act.rest sn.toClient⟩ n' sn n ∧
      (n'.client.sendState.weight L < n.client.sendState.weight L ∨
        (n'.client.sendState.weight L = n.client.sendState.weight L ∧ n'.backlog ≤ n.backlog)) ∧
      (∀ r, nextResult V = some r → Net.Lighter (n'.weight L) (n.weight L)) := by
  have hu : ∀ op, act ≠ .user op := by rintro op rfl; exact hi
  have hst : sn.step L (.client act) = some (⟨c', sn.server, sn.toServer ++ streamWrote (streamPart V), act.rest sn.toClient⟩, V.map .client) := by
    rw [step_client ⟨hu _, fun b => hu _⟩, StreamNet.clientStep, hs]
  obtain ⟨n', U, k1, k2, -, -, k5, k6, -⟩ := h.moved hL hO hmax hn ⟨.client act, hi, hst⟩ ⟨by simpa using hr, by simp⟩
  refine ⟨n', _, _, Net.run_join hn k1, k2, k5, ?_, ?_⟩
  · have hsv : n'.server = n.server := by
      refine Net.run_clientSide ?_ k1
      intro op hop
      rw [(atClient_map_client V).2.2] at hop
      obtain ⟨i, -, h5⟩ := List.mem_flatMap.1 hop
      cases i <;> simp [StreamNetItem.calls] at h5 <;> subst h5 <;> first | exact .inl ⟨_, rfl⟩ | exact .inr ⟨_, rfl⟩
    have hb : ∀ {x : Nat}, n'.toServer.length ≤ n.toServer.length → n'.backlog ≤ n.backlog := by
      intro _ hx
      simp only [Net.backlog, hsv]
      omega
    have hw : 3 * n'.toServer.length + n'.server.inputWeight ≤ 3 * n.toServer.length + n.server.inputWeight →
        n'.backlog ≤ n.backlog := by
      intro hx
      rw [hsv] at hx
      exact hb (x := 0) (by omega)
    rcases k5 with k5 | ⟨k5, -⟩
    · simp only [Net.weight, Net.lighter_iff] at k5
      rcases k5 with k5 | ⟨k5, k5'⟩
      · exact .inl k5
      · exact .inr ⟨k5, hw (by omega)⟩
    · simp only [Net.weight, Prod.mk.injEq] at k5
      exact .inr ⟨k5.1, hw (by omega)⟩
  · intro r hn'
    obtain ⟨q, q1, q2, -⟩ := FullStream.step_result hs hi hr k2.clientSound.alive hn'
    exact k6 q q2 (by rw [(atClient_map_client V).1]; exact q1)

/-- A message of the client was received, if the event tells so. -/
theorem received_of_heard {n1 : Net} {T1 U : List NItem} (h : Net.Linked L gc oc gs os gr n1 (T1 ++ U))
    (hS : ServerRecord (atServer G) (serverItems U)) {e : ServerEvent} (he : e.heard? ≠ none) (hp : .poll (.ok e) ∈ atServer G) :
    ∃ w e', .received w e' ∈ serverItems U := by
  have hm : Except.ok e ∈ (serverItems U).filterMap SItem.result? := by
    rw [hS.results]; exact List.mem_filterMap.2 ⟨_, hp, rfl⟩
  obtain ⟨i, h1, h2⟩ := List.mem_filterMap.1 hm
  obtain ⟨v, hv⟩ := h.server_guard (i := i) (by rw [serverItems_append]; exact List.mem_append_right _ h1)
  cases i with
  | sent e' =>
    simp [SItem.result?, SItem.erase] at h2
    subst h2
    obtain ⟨-, m, -, hm⟩ := hv
    cases m with
    | greeting g => cases hm; exact absurd rfl he
    | response hd r => cases hd <;> cases hm; exact absurd rfl he
  | received w e' => exact ⟨w, e', h1⟩
  | _ => simp [SItem.result?, SItem.erase] at h2

theorem Tracks.serverMoved (hL : L.Lawful) (hO : ServerOptions.Built L os) (hmax : 0 < os.maxCommandSize)
    (hn : (Net.new gc oc gs os gr).run L ops = .ok (n, T)) (h : Tracks paired sn n) {act : SideAct ServerOp}
    (hi : act.Internal sn.toServer) {c' : FullStream K Server} {V : List (FullItem ServerError ServerEvent ServerOp)}
    (hs : sn.server.step (serverMachine L) (act.toStream sn.toServer) = some (c', V)) (hr : .refused ∉ V) :
    ∃ n' ops' T', (Net.new gc oc gs os gr).run L ops' = .ok (n', T') ∧
      Tracks paired ⟨sn.client, c', act.rest sn.toServer, sn.toClient ++ streamWrote (streamPart V)⟩ n' ∧
      Less L ⟨sn.client, c', act.rest sn.toServer, sn.toClient ++ streamWrote (streamPart V)⟩ n' sn n ∧
      n'.client = n.client ∧ n'.backlog ≤ n.backlog ∧
      (∀ r, nextResult V = some r → Net.Lighter (n'.weight L) (n.weight L)) ∧
      (∀ e : ServerEvent, e.heard? ≠ none → nextResult V = some (.ok e) → n'.backlog < n.backlog) := by
  have hu : ∀ op, act ≠ .user op := by rintro op rfl; exact hi
  have hst : sn.step L (.server act) = some (⟨sn.client, c', act.rest sn.toServer, sn.toClient ++ streamWrote (streamPart V)⟩, V.map .server) := by
    rw [step_server ⟨hu _, fun b => hu _⟩, StreamNet.serverStep, hs]
  obtain ⟨n', U, k1, k2, -, k4, k5, -, k6⟩ := h.moved hL hO hmax hn ⟨.server act, hi, hst⟩ ⟨by simp, by simpa using hr⟩
  have hside : ∀ op ∈ (V.map StreamNetItem.server).flatMap StreamNetItem.calls, op.ServerSide := by
    intro op hop
    rw [(atServer_map_server V).2.2] at hop
    obtain ⟨i, h4, h5⟩ := List.mem_flatMap.1 hop
    cases i with
    | user op' => exact absurd (user_item hs h4) (hu op')
    | poll r => simp [StreamNetItem.calls] at h5; subst h5; trivial
    | deliver b => simp [StreamNetItem.calls] at h5; subst h5; trivial
    | _ => simp [StreamNetItem.calls] at h5
  obtain ⟨b1, b2⟩ := (Net.run_linked hn).run_backlog hmax hside k1
  refine ⟨n', _, _, Net.run_join hn k1, k2, k5, b1, by omega, ?_, ?_⟩
  · intro r hn'
    obtain ⟨q, q1, q2, -⟩ := FullStream.step_result hs hi hr k2.serverSound.alive hn'
    exact k6 q q2 (by rw [(atServer_map_server V).1]; exact q1)
  · intro e he hn'
    obtain ⟨q, q1, -, q2⟩ := FullStream.step_result hs hi hr k2.serverSound.alive hn'
    obtain rfl := q2 e rfl
    rcases b2 with b2 | ⟨-, b2⟩
    · exact b2
    · obtain ⟨w, e', hm⟩ := received_of_heard (Net.run_linked (Net.run_join hn k1)) k4 he
        (by rw [(atServer_map_server V).1]; exact q1)
      exact absurd hm (b2 w e')

/-- What passes on a stream. -/
theorem passing_items {σ ε ev ι : Type} {M : Machine σ ε ev ι} {P : ι → Prop} {acts : List (SideAct ι)}
    (ha : ∀ a ∈ acts, a.Passing P) {c c' : FullStream K σ} {I : List (FullItem ε ev ι)}
    (h : c.run M (acts.map (·.toStream [])) = some (c', I)) {i : FullItem ε ev ι} (hi : i ∈ I) :
    i = .stream .dropped ∨ (∃ op, P op ∧ i = .stream (.user op)) ∨ ∃ p, i = .stream (.panicked p) := by
  induction acts generalizing c I with
  | nil => cases h; cases hi
  | cons a acts ih =>
    simp only [List.map_cons, FullStream.run] at h
    cases hs : c.step M (a.toStream []) with
    | none => rw [hs] at h; cases h
    | some x =>
      obtain ⟨s1, I1⟩ := x
      rw [hs] at h
      simp only at h
      cases hr : s1.run M (acts.map (·.toStream [])) with
      | none => rw [hr] at h; cases h
      | some y =>
        obtain ⟨s2, I2⟩ := y
        rw [hr] at h
        cases h
        rcases List.mem_append.1 hi with hi | hi
        · have hp := ha a (List.mem_cons_self ..)
          cases a with
          | user op =>
            simp only [SideAct.toStream, FullStream.step] at hs
            split at hs
            · split at hs
              · cases hs
                simp only [List.mem_cons, List.not_mem_nil, or_false] at hi
                rcases hi with rfl | rfl
                · exact .inr (.inl ⟨op, hp, rfl⟩)
                · exact .inr (.inr ⟨_, rfl⟩)
              · cases hs
                rw [List.mem_singleton.1 hi]
                exact .inr (.inl ⟨op, hp, rfl⟩)
            · cases hs
          | drop =>
            simp only [SideAct.toStream, FullStream.step] at hs
            split at hs <;> first | (cases hs; done) | (cases hs; rw [List.mem_singleton.1 hi]; exact .inl rfl)
          | _ => exact hp.elim
        · exact ih (fun a h => ha a (List.mem_cons_of_mem _ h)) hr hi

/-- The owner of the client calls a method. -/
theorem Tracks.clientPasses (hL : L.Lawful) (hO : ServerOptions.Built L os)
    (hn : (Net.new gc oc gs os gr).run L ops = .ok (n, T)) (h : Tracks paired sn n) {acts : List (SideAct ClientOp)}
    (ha : ∀ a ∈ acts, a.Passing ClientOp.Allowed)
    {c' : FullStream K Client} {V : List (FullItem ClientError ClientEvent ClientOp)}
    (hs : sn.client.run (clientMachine L) (acts.map (·.toStream [])) = some (c', V)) :
    ∃ n' ops' T', (Net.new gc oc gs os gr).run L ops' = .ok (n', T') ∧
      Tracks paired ⟨c', sn.server, sn.toServer ++ streamWrote (streamPart V), sn.toClient⟩ n' ∧
      ((∀ op, .stream (.user op) ∉ V) → n' = n) := by
  have hit := fun i (hi : i ∈ V) => passing_items ha hs hi
  have hr : .refused ∉ V := fun hx => by
    rcases hit _ hx with h | ⟨_, -, h⟩ | ⟨_, h⟩ <;> cases h
  have hrun := run_clientPassing (n := sn) ha hs
  obtain ⟨n', U, k1, k2, -⟩ := Tracks.run hL hO hn h hrun ⟨by simpa using hr, by simp⟩
  refine ⟨n', _, _, Net.run_join hn k1, ?_, ?_⟩
  · rw [passing_run ha hs, List.append_nil]; exact k2
  · intro hno
    have e : (V.map StreamNetItem.client).flatMap StreamNetItem.calls = [] := by
      rw [List.flatMap_eq_nil_iff]
      intro x hx
      obtain ⟨i, hi, rfl⟩ := List.mem_map.1 hx
      rcases hit i hi with rfl | ⟨op, -, rfl⟩ | ⟨p, rfl⟩
      · rfl
      · exact absurd hi (hno op)
      · rfl
    rw [e] at k1
    cases k1
    rfl

/-- The owner of the server calls a method. -/
theorem Tracks.serverPasses (hL : L.Lawful) (hO : ServerOptions.Built L os)
    (hn : (Net.new gc oc gs os gr).run L ops = .ok (n, T)) (h : Tracks paired sn n) {acts : List (SideAct ServerOp)}
    (ha : ∀ a ∈ acts, a.Passing ServerOp.Allowed)
    {c' : FullStream K Server} {V : List (FullItem ServerError ServerEvent ServerOp)}
    (hs : sn.server.run (serverMachine L) (acts.map (·.toStream [])) = some (c', V)) :
    ∃ n' ops' T', (Net.new gc oc gs os gr).run L ops' = .ok (n', T') ∧
      Tracks paired ⟨sn.client, c', sn.toServer, sn.toClient ++ streamWrote (streamPart V)⟩ n' ∧
      n'.client = n.client ∧ n'.backlog ≤ n.backlog := by
  have hit := fun i (hi : i ∈ V) => passing_items ha hs hi
  have hr : .refused ∉ V := fun hx => by
    rcases hit _ hx with h | ⟨_, -, h⟩ | ⟨_, h⟩ <;> cases h
  have hrun := run_serverPassing (n := sn) ha hs
  obtain ⟨n', U, k1, k2, -⟩ := Tracks.run hL hO hn h hrun ⟨by simp, by simpa using hr⟩
  refine ⟨n', _, _, Net.run_join hn k1, ?_, ?_⟩
  · rw [passing_run ha hs, List.append_nil]; exact k2
  · refine Net.run_calls ?_ k1
    intro op hop
    obtain ⟨x, hx, hop⟩ := List.mem_flatMap.1 hop
    obtain ⟨i, hi, rfl⟩ := List.mem_map.1 hx
    rcases hit i hi with rfl | ⟨o, ho, rfl⟩ | ⟨p, rfl⟩
    · cases hop
    · simp [StreamNetItem.calls] at hop
      exact ⟨o, hop, ho⟩
    · cases hop

end StreamNet

/-! ## Steps of the proxy -/

theorem clientBranch_passes {c : FullStream K Server} {s : FullStream K Client}
    {r : Except (StreamError ServerError) ServerEvent} {p : Proxy K} {T : List ProxyItem}
    (h : Proxy.clientBranch L c s r = (p, T)) {op : ClientOp} (ho : .stream (.user op) ∈ serverFull T) :
    ∃ e : ServerEvent, r = .ok e ∧ e.heard? ≠ none := by
  have hd : .stream (.user op) ∉ (s.dropFuture (ε := ClientError) (ev := ClientEvent) (ι := ClientOp)).2 := by
    unfold FullStream.dropFuture
    split <;> simp
  cases hf : s.dropFuture (ε := ClientError) (ev := ClientEvent) (ι := ClientOp) with
  | mk s1 D =>
    rw [hf] at hd
    simp only [Proxy.clientBranch, hf] at h
    cases he : handleClientEvent L r s1.state with
    | error e =>
      rw [he] at h
      cases h
      rw [serverFull_append, serverFull_server] at ho
      simp [serverFull, ProxyItem.serverFull?] at ho
      exact absurd ho hd
    | ok x =>
      obtain ⟨st', calls, flow⟩ := x
      rw [he] at h
      have hcalls : calls ≠ [] := by
        rintro rfl
        cases flow <;>
        · cases h
          rw [serverFull_append, serverFull_server] at ho
          simp [serverFull] at ho
          exact hd ho
      cases r with
      | error e => cases e <;> (cases he; exact absurd rfl hcalls)
      | ok e =>
        refine ⟨e, rfl, ?_⟩
        cases e with
        | greetingSent | responseSent => cases he; exact absurd rfl hcalls
        | _ => simp [ServerEvent.heard?]

/-- A step on the connection to the client: either nothing happens on the other connection, or `next` has returned. -/
theorem Proxy.step_client_passes {g : HandleGenerator} {c : FullStream K Server} {s : FullStream K Client} {act : IoAct}
    {p : Proxy K} {T : List ProxyItem} (h : (Proxy.conversation c s).step L g (.client act) = some (p, T))
    (hd : s.ctl ≠ .at .dead) (hl : s.Live) :
    ∃ (c' : FullStream K Server) (s' : FullStream K Client) (acts : List (SideAct ClientOp)),
      c.step (serverMachine L) act.toStream = some (c', clientFull T) ∧
      s.run (clientMachine L) (acts.map (·.toStream [])) = some (s', serverFull T) ∧
      (∀ a ∈ acts, a.Passing ClientOp.Allowed) ∧ (p = .conversation c' s' ∨ p.Ended) ∧
      ((s' = s ∧ serverFull T = []) ∨ ∃ r, nextResult (clientFull T) = some r ∧
        ((∀ op, .stream (.user op) ∉ serverFull T) ∨ ∃ e : ServerEvent, r = .ok e ∧ e.heard? ≠ none)) := by
  simp only [Proxy.step] at h
  cases hs : c.step (serverMachine L) act.toStream with
  | none => rw [hs] at h; cases h
  | some x =>
    obtain ⟨c', I⟩ := x
    rw [hs] at h
    simp only at h
    split at h
    · cases h
      exact ⟨c', s, [], by rw [clientFull_client], by rw [serverFull_client]; rfl, nofun, .inr trivial,
        .inl ⟨rfl, serverFull_client _⟩⟩
    · split at h
      · cases h
        exact ⟨c', s, [], by rw [clientFull_client], by rw [serverFull_client]; rfl, nofun, .inr trivial,
          .inl ⟨rfl, serverFull_client _⟩⟩
      · split at h
        · cases h
          exact ⟨c', s, [], by rw [clientFull_client], by rw [serverFull_client]; rfl, nofun, .inl rfl,
            .inl ⟨rfl, serverFull_client _⟩⟩
        · rename_i r hr
          cases hb : Proxy.clientBranch L c' s r with
          | mk p' T' =>
            rw [hb] at h
            cases h
            obtain ⟨s', acts, h1, h2, h3, h4⟩ := Proxy.clientBranch_sides hb hd hl
            have e1 : clientFull (I.map ProxyItem.ofClient ++ T') = I := by
              rw [clientFull_append, clientFull_client, h2, List.append_nil]
            have e2 : serverFull (I.map ProxyItem.ofClient ++ T') = serverFull T' := by
              rw [serverFull_append, serverFull_client, List.nil_append]
            refine ⟨c', s', acts, by rw [e1], by rw [e2, h1], h3, ?_, .inr ⟨r, by rw [e1]; exact hr, ?_⟩⟩
            · rcases h4 with h4 | rfl | rfl
              · exact .inl h4
              · exact .inr trivial
              · exact .inr trivial
            · rw [e2]
              by_cases hu : ∃ op, .stream (.user op) ∈ serverFull T'
              · obtain ⟨op, ho⟩ := hu
                exact .inr (clientBranch_passes hb ho)
              · exact .inl fun op ho => hu ⟨op, ho⟩

/-- A step on the connection to the server: either nothing happens on the other connection, or `next` has returned. -/
theorem Proxy.step_server_passes {g : HandleGenerator} {c : FullStream K Server} {s : FullStream K Client} {act : IoAct}
    {p : Proxy K} {T : List ProxyItem} (h : (Proxy.conversation c s).step L g (.server act) = some (p, T))
    (hd : c.ctl ≠ .at .dead) (hl : c.Live) :
    ∃ (c' : FullStream K Server) (s' : FullStream K Client) (acts : List (SideAct ServerOp)),
      s.step (clientMachine L) act.toStream = some (s', serverFull T) ∧
      c.run (serverMachine L) (acts.map (·.toStream [])) = some (c', clientFull T) ∧
      (∀ a ∈ acts, a.Passing ServerOp.Allowed) ∧ (p = .conversation c' s' ∨ p.Ended) ∧
      ((c' = c ∧ clientFull T = []) ∨ ∃ r, nextResult (serverFull T) = some r) := by
  simp only [Proxy.step] at h
  cases hs : s.step (clientMachine L) act.toStream with
  | none => rw [hs] at h; cases h
  | some x =>
    obtain ⟨s', I⟩ := x
    rw [hs] at h
    simp only at h
    split at h
    · cases h
      exact ⟨c, s', [], by rw [serverFull_server], by rw [clientFull_server]; rfl, nofun, .inr trivial,
        .inl ⟨rfl, clientFull_server _⟩⟩
    · split at h
      · cases h
        exact ⟨c, s', [], by rw [serverFull_server], by rw [clientFull_server]; rfl, nofun, .inr trivial,
          .inl ⟨rfl, clientFull_server _⟩⟩
      · split at h
        · cases h
          exact ⟨c, s', [], by rw [serverFull_server], by rw [clientFull_server]; rfl, nofun, .inl rfl,
            .inl ⟨rfl, clientFull_server _⟩⟩
        · rename_i r hr
          cases hb : Proxy.serverBranch L c s' r with
          | mk p' T' =>
            rw [hb] at h
            cases h
            obtain ⟨c', acts, h1, h2, h3, h4⟩ := Proxy.serverBranch_sides hb hd hl
            have e1 : serverFull (I.map ProxyItem.ofServer ++ T') = I := by
              rw [serverFull_append, serverFull_server, h2, List.append_nil]
            refine ⟨c', s', acts, by rw [e1], ?_, h3, ?_, .inr ⟨r, by rw [e1]; exact hr⟩⟩
            · rw [clientFull_append, clientFull_server, List.nil_append, h1]
            · rcases h4 with h4 | rfl | rfl
              · exact .inl h4
              · exact .inr trivial
              · exact .inr trivial

theorem PollAct.internal {ι : Type} {a : PollAct} {wire : Bytes} (h : a.Internal wire) : ∃ act : SideAct ι,
    act.Internal wire ∧ act.toStream wire = (a.toIo wire).toStream ∧ act.rest wire = a.rest wire := by
  cases a with
  | poll => exact ⟨.callNext, trivial, rfl, rfl⟩
  | read n => exact ⟨.read n, h, rfl, rfl⟩
  | write n => exact ⟨.write n, h, rfl, rfl⟩
  | fail => exact h.elim

end ImapFlow
