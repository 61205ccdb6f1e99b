import Verif.Spec.StreamNet
import Verif.Proofs.FullStreamRun
import Verif.Proofs.Net
import Verif.Proofs.ClientSafe
import Verif.Proofs.StreamClient

/-!
# Two streams that are connected by a network: every run is a run of the client and the server
-/

namespace ImapFlow

variable {K : Type}

/-! ## Calls on the states -/

theorem Net.run_append (L : Lib) (ops ops' : List NetOp) (n : Net) : n.run L (ops ++ ops') =
    match n.run L ops with
    | .error p => .error p
    | .ok (n1, T) => (n1.run L ops').map fun x => (x.1, T ++ x.2) := by
  induction ops generalizing n with
  | nil => simp only [List.nil_append, Net.run]; cases n.run L ops' <;> simp [Except.map]
  | cons op ops ih =>
    simp only [List.cons_append, Net.run]
    cases h : n.step L op with
    | error p => rfl
    | ok x =>
      obtain ⟨n1, T⟩ := x
      simp only
      rw [ih]
      cases h1 : n1.run L ops with
      | error p => rfl
      | ok y =>
        obtain ⟨n2, U⟩ := y
        simp only
        cases n2.run L ops' <;> simp [Except.map]

theorem SItem.outputs_erase (T : List SItem) : serverOutput T = (T.filterMap SItem.erase).flatMap fun
    | .next (.error (.io (.output b))) => b
    | _ => [] := by
  induction T with
  | nil => rfl
  | cons i T ih =>
    rw [show serverOutput (i :: T) = i.outputs ++ serverOutput T from rfl, ih]
    cases i <;> simp [SItem.erase, SItem.outputs, List.filterMap_cons]

theorem CItem.results_erase (T : List CItem) : T.filterMap CItem.result? = (T.filterMap CItem.erase).filterMap fun
    | .next r => some r
    | _ => none := by
  induction T with
  | nil => rfl
  | cons i T ih =>
    cases i <;> simp [CItem.result?, CItem.erase, List.filterMap_cons, ih]

theorem SItem.results_erase (T : List SItem) : T.filterMap SItem.result? = (T.filterMap SItem.erase).filterMap fun
    | .next r => some r
    | _ => none := by
  induction T with
  | nil => rfl
  | cons i T ih =>
    cases i <;> simp [SItem.result?, SItem.erase, List.filterMap_cons, ih]

theorem SItem.requested_erase (T : List SItem) : T.filterMap SItem.requested? = (T.filterMap SItem.erase).filterMap fun
    | .enqueued _ r => some r
    | .authenticateContinue q _ | .idleAccept q _ => some (.continuationRequest q)
    | .authenticateFinish st _ | .idleReject st _ => some (.status st)
    | _ => none := by
  induction T with
  | nil => rfl
  | cons i T ih =>
    cases i <;> simp [SItem.requested?, SItem.erase, List.filterMap_cons, ih]

theorem CItem.enqueued_erase (T : List CItem) : (clientEnqueued T).map Prod.snd = (T.filterMap CItem.erase).filterMap fun
    | .enqueued _ c => some c
    | _ => none := by
  induction T with
  | nil => rfl
  | cons i T ih =>
    rw [show clientEnqueued (i :: T) = i.enqueues ++ clientEnqueued T from rfl, List.map_append, ih]
    cases i <;> simp [CItem.erase, CItem.enqueues, List.filterMap_cons]

/-- A call of the client with its trace. -/
theorem Client.call_trace {L : Lib} {c c' : Client} {op : ClientOp} {o : ClientObs} (h : c.call L op = .ok (c', o)) :
    ∃ U, c.callTrace L op = .ok (c', U) ∧ U.filterMap CItem.erase = [o] := by
  have h1 := Client.callTrace_erase L c op
  rw [h] at h1
  cases hn : c.callTrace L op with
  | error p => rw [hn] at h1; cases h1
  | ok x =>
    obtain ⟨c1, U⟩ := x
    rw [hn] at h1
    simp only [Client.eraseRes, Except.map, Except.ok.injEq, Prod.mk.injEq] at h1
    obtain ⟨rfl, h1⟩ := h1
    exact ⟨U, rfl, h1⟩

/-- A call of the server with its trace. -/
theorem Server.call_trace {L : Lib} {s s' : Server} {op : ServerOp} {o : ServerObs} (h : s.call L op = .ok (s', o)) :
    ∃ U, s.callTrace L op = .ok (s', U) ∧ U.filterMap SItem.erase = [o] := by
  have h1 := Server.callTrace_erase L s op
  rw [h] at h1
  cases hn : s.callTrace L op with
  | error p => rw [hn] at h1; cases h1
  | ok x =>
    obtain ⟨c1, U⟩ := x
    rw [hn] at h1
    simp only [Server.eraseRes, Except.map, Except.ok.injEq, Prod.mk.injEq] at h1
    obtain ⟨rfl, h1⟩ := h1
    exact ⟨U, rfl, h1⟩

/-- What a client on a stream did, as a trace. -/
structure ClientRecord (S : List (StreamItem ClientError ClientEvent ClientOp)) (U : List CItem) : Prop where
  output : clientOutput U = streamOutput S
  results : U.filterMap CItem.result? = S.filterMap StreamItem.poll?
  enqueued : (clientEnqueued U).map Prod.snd = S.filterMap StreamItem.enqueued?
  nil : S = [] → U = []
  starved : ∀ S0, S = S0 ++ [.poll (.error (.io .needMoreInput))] → ∃ U0, U = U0 ++ [.starved]

theorem ClientRecord.append {S S' : List (StreamItem ClientError ClientEvent ClientOp)} {U U' : List CItem}
    (h : ClientRecord S U) (h' : ClientRecord S' U') : ClientRecord (S ++ S') (U ++ U') := by
  refine ⟨?_, ?_, ?_, ?_, ?_⟩
  · rw [clientOutput_append, streamOutput_append, h.output, h'.output]
  · rw [List.filterMap_append, List.filterMap_append, h.results, h'.results]
  · rw [clientEnqueued_append, List.map_append, List.filterMap_append, h.enqueued, h'.enqueued]
  · intro he
    rw [List.append_eq_nil_iff] at he
    rw [h.nil he.1, h'.nil he.2]; rfl
  · intro S0 he
    rcases List.eq_nil_or_concat S' with rfl | ⟨S1, x, rfl⟩
    · rw [List.append_nil] at he
      rw [h'.nil rfl, List.append_nil]
      exact h.starved S0 he
    · rw [List.concat_eq_append, ← List.append_assoc] at he
      obtain ⟨-, he⟩ := List.append_inj' he rfl
      obtain ⟨U0, rfl⟩ := h'.starved S1 (by rw [List.concat_eq_append, he])
      exact ⟨U ++ U0, by simp⟩

theorem client_item {L : Lib} {i : StreamItem ClientError ClientEvent ClientOp} {n : Net} {c' : Client} {rest : Bytes}
    (hr : (clientMachine L).replay n.client [i] = some c') (hin : n.toClient = streamDelivered [i] ++ rest)
    (ho : i ≠ .user .next ∧ ∀ b, i ≠ .user (.enqueueInput b)) :
    ∃ U, n.run L (StreamNetItem.calls (.client (.stream i))) =
        .ok ({ n with client := c', toClient := rest, toServer := n.toServer ++ streamOutput [i] }, U.map .client) ∧
      ClientRecord [i] U := by
  have skip : n.client = c' → n.toClient = rest → streamOutput [i] = [] → StreamItem.poll? i = none →
      StreamItem.enqueued? i = none → StreamNetItem.calls (.client (.stream i)) = [] → ∃ U, n.run L
        (StreamNetItem.calls (.client (.stream i))) =
        .ok ({ n with client := c', toClient := rest, toServer := n.toServer ++ streamOutput [i] }, U.map .client) ∧
      ClientRecord [i] U := by
    rintro rfl rfl h3 h4 h5 h6
    refine ⟨[], by simp [h6, h3, Net.run], ⟨h3.symm, by simp [h4], by simp [h5, clientEnqueued], by simp, ?_⟩⟩
    intro S0 he
    obtain ⟨-, he⟩ := List.append_inj' (s₁ := []) he rfl
    cases he
    cases h4
  have record : ∀ {U obs}, U.filterMap CItem.erase = [obs] → ClientObs.outputs obs = streamOutput [i] →
      (match obs with | .next r => some r | _ => none) = StreamItem.poll? i →
      (match obs with | .enqueued _ c => some c | _ => none) = StreamItem.enqueued? i →
      (i = .poll (.error (.io .needMoreInput)) → ∃ U0, U = U0 ++ [.starved]) → ClientRecord [i] U := by
    intro U obs h1 h2 h3 h4 h5
    refine ⟨?_, ?_, ?_, by simp, ?_⟩
    · rw [CItem.outputs_erase, h1]; simpa using h2
    · rw [CItem.results_erase, h1]; simp [List.filterMap_cons, ← h3]
    · rw [CItem.enqueued_erase, h1]; simp [List.filterMap_cons, ← h4]
    · intro S0 he
      obtain ⟨-, he⟩ := List.append_inj' (s₁ := []) he rfl
      injection he with he
      exact h5 he
  cases i with
  | user op =>
    simp only [Machine.replay, clientMachine] at hr
    cases hc : n.client.call L op with
    | error p => rw [hc] at hr; cases hr
    | ok x =>
      obtain ⟨c1, obs⟩ := x
      rw [hc] at hr
      cases hr
      obtain ⟨U, h1, h2⟩ := Client.call_trace hc
      have hin : n.toClient = rest := hin
      have hrec : ClientRecord [StreamItem.user op] U := by
        cases op with
        | next => exact (ho.1 rfl).elim
        | enqueueInput b => exact (ho.2 b rfl).elim
        | enqueueCommand cmd => simp only [Client.call] at hc; cases hc; exact record h2 rfl rfl rfl (by simp)
        | setAuthenticateData d =>
          simp only [Client.call] at hc
          cases he : n.client.setAuthenticateData L d with
          | error p => rw [he] at hc; cases hc
          | ok y => rw [he] at hc; cases hc; exact record h2 rfl rfl rfl (by simp)
        | setIdleDone =>
          simp only [Client.call] at hc
          cases he : n.client.setIdleDone L with
          | error p => rw [he] at hc; cases hc
          | ok y => rw [he] at hc; cases hc; exact record h2 rfl rfl rfl (by simp)
      refine ⟨U, ?_, hrec⟩
      have hs : n.step L (.client op) = n.callClient L op := by
        cases op with
        | enqueueInput b => exact (ho.2 b rfl).elim
        | _ => rfl
      rw [← hrec.output]
      simp [StreamNetItem.calls, Net.run, hs, Net.callClient, h1, hin]
  | deliver b =>
    simp only [Machine.replay, clientMachine] at hr
    cases hc : n.client.enqueueInput b with
    | error p => rw [hc] at hr; cases hr
    | ok c1 =>
      rw [hc] at hr
      cases hr
      have hin : n.toClient = b ++ rest := by simpa [streamDelivered] using hin
      refine ⟨[.input b], ?_, ⟨rfl, rfl, rfl, by simp, ?_⟩⟩
      have h1 : n.toClient.take b.length = b := by rw [hin]; simp
      have h2 : n.toClient.drop b.length = rest := by rw [hin]; simp
      have h3 : (n.client.callTrace L (.enqueueInput b)) = .ok (c', [.input b]) := by
        simp [Client.callTrace, hc, Except.map]
      · simp [StreamNetItem.calls, Net.run, Net.step, Net.callClient, h1, h2, h3, streamOutput, clientOutput, CItem.outputs]
      · intro S0 he
        obtain ⟨-, he⟩ := List.append_inj' (s₁ := []) he rfl
        cases he
  | poll r =>
    simp only [Machine.replay, clientMachine] at hr
    cases hc : n.client.next L with
    | error p => rw [hc] at hr; cases hr
    | ok x =>
      obtain ⟨c1, r'⟩ := x
      rw [hc] at hr
      simp only at hr
      split at hr
      · rename_i e
        subst e
        cases hr
        obtain ⟨U, h1, h2⟩ := Client.call_trace (L := L) (op := .next) (c := n.client) (c' := c') (o := .next r')
          (by simp [Client.call, hc, Except.map])
        have hin : n.toClient = rest := hin
        have hrec : ClientRecord [StreamItem.poll r'] U := record h2
          (by rcases r' with (⟨_ | b⟩ | e) | e <;> simp [ClientObs.outputs, streamOutput]) rfl rfl
          (by
            intro he
            cases he
            obtain ⟨ws, i, rfl, h3, h4⟩ := Client.nextTrace_shape h1
            have h5 : (ws.map CItem.released).filterMap CItem.erase = [] := by
              rw [List.filterMap_eq_nil_iff]
              simp [CItem.erase]
            rw [List.filterMap_append, h5] at h2
            cases i <;> first
              | exact ⟨_, rfl⟩
              | (exfalso; revert h2 h3 h4; simp [CItem.erase, CItem.isNext]))
        refine ⟨U, ?_, hrec⟩
        rw [← hrec.output]
        simp [StreamNetItem.calls, Net.run, Net.step, Net.callClient, h1, hin]
      · cases hr
  | _ =>
    cases hr
    exact skip rfl (by simpa [streamDelivered] using hin) rfl rfl rfl rfl

/-- The calls on a client. -/
theorem client_items {L : Lib} {S : List (StreamItem ClientError ClientEvent ClientOp)} {n : Net} {c' : Client}
    {rest : Bytes} (hr : (clientMachine L).replay n.client S = some c') (hin : n.toClient = streamDelivered S ++ rest)
    (ho : StreamItem.user .next ∉ S ∧ ∀ b, StreamItem.user (.enqueueInput b) ∉ S) :
    ∃ U, n.run L (S.flatMap fun i => StreamNetItem.calls (.client (.stream i))) =
        .ok ({ n with client := c', toClient := rest, toServer := n.toServer ++ streamOutput S }, U.map .client) ∧
      ClientRecord S U := by
  induction S generalizing n with
  | nil =>
    cases hr
    refine ⟨[], ?_, ⟨rfl, rfl, rfl, fun _ => rfl, by simp⟩⟩
    have : n.toClient = rest := hin
    simp [Net.run, streamOutput, ← this]
  | cons i S ih =>
    rw [show i :: S = [i] ++ S from rfl, Machine.replay_append] at hr
    rw [show i :: S = [i] ++ S from rfl, streamDelivered_append, List.append_assoc] at hin
    cases h1 : (clientMachine L).replay n.client [i] with
    | none => rw [h1] at hr; cases hr
    | some c1 =>
      rw [h1] at hr
      obtain ⟨U1, g1, g2⟩ := client_item h1 hin
        ⟨fun h => ho.1 (by rw [h]; simp), fun b h => ho.2 b (by rw [h]; simp)⟩
      obtain ⟨U2, g3, g4⟩ := ih (n := { n with client := c1, toClient := streamDelivered S ++ rest,
                                               toServer := n.toServer ++ streamOutput [i] }) hr rfl
        ⟨fun h => ho.1 (List.mem_cons_of_mem _ h), fun b h => ho.2 b (List.mem_cons_of_mem _ h)⟩
      refine ⟨U1 ++ U2, ?_, g2.append g4⟩
      rw [List.flatMap_cons, Net.run_append, g1]
      simp only
      rw [g3]
      rw [show i :: S = [i] ++ S from rfl, streamOutput_append]
      simp [Except.map]

/-- A response that the user wants to send, or a result of `next`. -/
def SItem.mark? (i : SItem) : Option (Response ⊕ Except (Interrupt ServerError) ServerEvent) :=
  match i.requested? with
  | some r => some (.inl r)
  | none => i.result?.map .inr

/-- A response that the user wants to send, or a result of the state. -/
def StreamItem.mark? (i : StreamItem ServerError ServerEvent ServerOp) :
    Option (Response ⊕ Except (Interrupt ServerError) ServerEvent) :=
  match i.response? with
  | some r => some (.inl r)
  | none => i.poll?.map .inr

/-- What a server on a stream did, as a trace. -/
structure ServerRecord (S : List (StreamItem ServerError ServerEvent ServerOp)) (U : List SItem) : Prop where
  output : serverOutput U = streamOutput S
  results : U.filterMap SItem.result? = S.filterMap StreamItem.poll?
  enqueued : U.filterMap SItem.requested? = S.filterMap StreamItem.response?
  told : U.filterMap SItem.told? = S.filterMap StreamItem.told?
  nil : S = [] → U = []
  starved : ∀ S0, S = S0 ++ [.poll (.error (.io .needMoreInput))] → ∃ U0, U = U0 ++ [.starved]
  order : U.filterMap SItem.mark? = S.filterMap StreamItem.mark?

theorem SItem.mark_erase (U : List SItem) : U.filterMap SItem.mark? = (U.filterMap SItem.erase).filterMap
    fun obs => match (match obs with
        | .enqueued _ r => some r
        | .authenticateContinue q _ | .idleAccept q _ => some (.continuationRequest q)
        | .authenticateFinish st _ | .idleReject st _ => some (.status st)
        | _ => none : Option Response) with
      | some r => some (.inl r)
      | none => (match obs with | .next r => some r | _ => none : Option (Except (Interrupt ServerError) ServerEvent)).map
          .inr := by
  induction U with
  | nil => rfl
  | cons i U ih =>
    cases i <;> simp [SItem.mark?, SItem.requested?, SItem.result?, SItem.erase, List.filterMap_cons, ih]

theorem SItem.told_erase (U : List SItem) : U.filterMap SItem.told? = (U.filterMap SItem.erase).filterMap
    fun | .enqueued _ r => r.told? | _ => none := by
  induction U with
  | nil => rfl
  | cons i U ih => cases i <;> simp [SItem.told?, SItem.erase, List.filterMap_cons, ih]

theorem ServerRecord.append {S S' : List (StreamItem ServerError ServerEvent ServerOp)} {U U' : List SItem}
    (h : ServerRecord S U) (h' : ServerRecord S' U') : ServerRecord (S ++ S') (U ++ U') := by
  refine ⟨?_, ?_, ?_, ?_, ?_, ?_, by rw [List.filterMap_append, List.filterMap_append, h.order, h'.order]⟩
  · rw [serverOutput_append, streamOutput_append, h.output, h'.output]
  · rw [List.filterMap_append, List.filterMap_append, h.results, h'.results]
  · rw [List.filterMap_append, List.filterMap_append, h.enqueued, h'.enqueued]
  · rw [List.filterMap_append, List.filterMap_append, h.told, h'.told]
  · intro he
    rw [List.append_eq_nil_iff] at he
    rw [h.nil he.1, h'.nil he.2]; rfl
  · intro S0 he
    rcases List.eq_nil_or_concat S' with rfl | ⟨S1, x, rfl⟩
    · rw [List.append_nil] at he
      rw [h'.nil rfl, List.append_nil]
      exact h.starved S0 he
    · rw [List.concat_eq_append, ← List.append_assoc] at he
      obtain ⟨-, he⟩ := List.append_inj' he rfl
      obtain ⟨U0, rfl⟩ := h'.starved S1 (by rw [List.concat_eq_append, he])
      exact ⟨U ++ U0, by simp⟩

theorem server_item {L : Lib} {i : StreamItem ServerError ServerEvent ServerOp} {n : Net} {c' : Server} {rest : Bytes}
    (hr : (serverMachine L).replay n.server [i] = some c') (hin : n.toServer = streamDelivered [i] ++ rest)
    (ho : i ≠ .user .next ∧ ∀ b, i ≠ .user (.enqueueInput b)) :
    ∃ U, n.run L (StreamNetItem.calls (.server (.stream i))) =
        .ok ({ n with server := c', toServer := rest, toClient := n.toClient ++ streamOutput [i] }, U.map .server) ∧
      ServerRecord [i] U := by
  have skip : n.server = c' → n.toServer = rest → streamOutput [i] = [] → StreamItem.poll? i = none →
      StreamItem.response? i = none → StreamItem.told? i = none → StreamNetItem.calls (.server (.stream i)) = [] → ∃ U, n.run L
        (StreamNetItem.calls (.server (.stream i))) =
        .ok ({ n with server := c', toServer := rest, toClient := n.toClient ++ streamOutput [i] }, U.map .server) ∧
      ServerRecord [i] U := by
    rintro rfl rfl h3 h4 h5 h7 h6
    refine ⟨[], by simp [h6, h3, Net.run], ⟨h3.symm, by simp [h4], by simp [h5], by simp [h7], by simp, ?_, by simp [StreamItem.mark?, h4, h5]⟩⟩
    intro S0 he
    obtain ⟨-, he⟩ := List.append_inj' (s₁ := []) he rfl
    cases he
    cases h4
  have record : ∀ {U obs}, U.filterMap SItem.erase = [obs] → (match obs with | .next (.error (.io (.output b))) => b | _ => []) = streamOutput [i] →
      (match obs with | .next r => some r | _ => none) = StreamItem.poll? i →
      (match obs with
        | .enqueued _ r => some r
        | .authenticateContinue q _ | .idleAccept q _ => some (.continuationRequest q)
        | .authenticateFinish st _ | .idleReject st _ => some (.status st)
        | _ => none) = StreamItem.response? i →
      (match obs with | .enqueued _ r => r.told? | _ => none) = StreamItem.told? i →
      (i = .poll (.error (.io .needMoreInput)) → ∃ U0, U = U0 ++ [.starved]) → ServerRecord [i] U := by
    intro U obs h1 h2 h3 h4 h6 h5
    refine ⟨?_, ?_, ?_, ?_, by simp, ?_, ?_⟩
    · rw [SItem.outputs_erase, h1]; simpa using h2
    · rw [SItem.results_erase, h1]; simp [List.filterMap_cons, ← h3]
    · rw [SItem.requested_erase, h1]; simp [List.filterMap_cons, ← h4]
    · rw [SItem.told_erase, h1]; simp [List.filterMap_cons, ← h6]
    · intro S0 he
      obtain ⟨-, he⟩ := List.append_inj' (s₁ := []) he rfl
      injection he with he
      exact h5 he
    · rw [SItem.mark_erase, h1]
      simp only [List.filterMap_cons, List.filterMap_nil, StreamItem.mark?, ← h3, ← h4]
  cases i with
  | user op =>
    simp only [Machine.replay, serverMachine] at hr
    cases hc : n.server.call L op with
    | error p => rw [hc] at hr; cases hr
    | ok x =>
      obtain ⟨c1, obs⟩ := x
      rw [hc] at hr
      cases hr
      obtain ⟨U, h1, h2⟩ := Server.call_trace hc
      have hin : n.toServer = rest := hin
      have hrec : ServerRecord [StreamItem.user op] U := by
        cases op with
        | next => exact (ho.1 rfl).elim
        | enqueueInput b => exact (ho.2 b rfl).elim
        | enqueueData d => simp only [Server.call] at hc; cases hc; exact record h2 rfl rfl rfl rfl (by simp)
        | enqueueStatus d => simp only [Server.call] at hc; cases hc; exact record h2 rfl rfl rfl rfl (by simp)
        | enqueueContinuationRequest d => simp only [Server.call] at hc; cases hc; exact record h2 rfl rfl rfl rfl (by simp)
        | authenticateContinue d => simp only [Server.call] at hc; cases hc; exact record h2 rfl rfl rfl rfl (by simp)
        | authenticateFinish d =>
          simp only [Server.call] at hc
          cases he : n.server.authenticateFinish d with
          | error p => rw [he] at hc; cases hc
          | ok y => rw [he] at hc; cases hc; exact record h2 rfl rfl rfl rfl (by simp)
        | idleAccept d =>
          simp only [Server.call] at hc
          cases he : n.server.idleAccept d with
          | error p => rw [he] at hc; cases hc
          | ok y => rw [he] at hc; cases hc; exact record h2 rfl rfl rfl rfl (by simp)
        | idleReject d =>
          simp only [Server.call] at hc
          cases he : n.server.idleReject d with
          | error p => rw [he] at hc; cases hc
          | ok y => rw [he] at hc; cases hc; exact record h2 rfl rfl rfl rfl (by simp)
      refine ⟨U, ?_, hrec⟩
      have hs : n.step L (.server op) = n.callServer L op := by
        cases op with
        | enqueueInput b => exact (ho.2 b rfl).elim
        | _ => rfl
      rw [← hrec.output]
      simp [StreamNetItem.calls, Net.run, hs, Net.callServer, h1, hin]
  | deliver b =>
    simp only [Machine.replay, serverMachine] at hr
    cases hc : n.server.enqueueInput b with
    | error p => rw [hc] at hr; cases hr
    | ok c1 =>
      rw [hc] at hr
      cases hr
      have hin : n.toServer = b ++ rest := by simpa [streamDelivered] using hin
      refine ⟨[.input b], ?_, ⟨rfl, rfl, rfl, rfl, by simp, ?_, rfl⟩⟩
      have h1 : n.toServer.take b.length = b := by rw [hin]; simp
      have h2 : n.toServer.drop b.length = rest := by rw [hin]; simp
      have h3 : (n.server.callTrace L (.enqueueInput b)) = .ok (c', [.input b]) := by
        simp [Server.callTrace, hc, Except.map]
      · simp [StreamNetItem.calls, Net.run, Net.step, Net.callServer, h1, h2, h3, streamOutput, serverOutput, SItem.outputs]
      · intro S0 he
        obtain ⟨-, he⟩ := List.append_inj' (s₁ := []) he rfl
        cases he
  | poll r =>
    simp only [Machine.replay, serverMachine] at hr
    cases hc : n.server.next L with
    | error p => rw [hc] at hr; cases hr
    | ok x =>
      obtain ⟨c1, r'⟩ := x
      rw [hc] at hr
      simp only at hr
      split at hr
      · rename_i e
        subst e
        cases hr
        obtain ⟨U, h1, h2⟩ := Server.call_trace (L := L) (op := .next) (s := n.server) (s' := c') (o := .next r')
          (by simp [Server.call, hc, Except.map])
        have hin : n.toServer = rest := hin
        have hrec : ServerRecord [StreamItem.poll r'] U := record h2
          (by rcases r' with (⟨_ | b⟩ | e) | e <;> simp [streamOutput]) rfl rfl rfl
          (by
            intro he
            cases he
            obtain ⟨V, i, rfl, h3, h4⟩ := Server.nextTrace_shape h1
            have h5 : V.filterMap SItem.erase = [] := by
              rw [List.filterMap_eq_nil_iff]
              intro j hj
              rcases h4 j hj with rfl | ⟨_, _, rfl⟩ <;> rfl
            rw [List.filterMap_append, h5] at h2
            cases i <;> first
              | exact ⟨_, rfl⟩
              | (exfalso; revert h2 h3; simp [SItem.erase]))
        refine ⟨U, ?_, hrec⟩
        rw [← hrec.output]
        simp [StreamNetItem.calls, Net.run, Net.step, Net.callServer, h1, hin]
      · cases hr
  | _ =>
    cases hr
    exact skip rfl (by simpa [streamDelivered] using hin) rfl rfl rfl rfl rfl

/-- The calls on a server. -/
theorem server_items {L : Lib} {S : List (StreamItem ServerError ServerEvent ServerOp)} {n : Net} {c' : Server}
    {rest : Bytes} (hr : (serverMachine L).replay n.server S = some c') (hin : n.toServer = streamDelivered S ++ rest)
    (ho : StreamItem.user .next ∉ S ∧ ∀ b, StreamItem.user (.enqueueInput b) ∉ S) :
    ∃ U, n.run L (S.flatMap fun i => StreamNetItem.calls (.server (.stream i))) =
        .ok ({ n with server := c', toServer := rest, toClient := n.toClient ++ streamOutput S }, U.map .server) ∧
      ServerRecord S U := by
  induction S generalizing n with
  | nil =>
    cases hr
    refine ⟨[], ?_, ⟨rfl, rfl, rfl, rfl, fun _ => rfl, by simp, rfl⟩⟩
    have : n.toServer = rest := hin
    simp [Net.run, streamOutput, ← this]
  | cons i S ih =>
    rw [show i :: S = [i] ++ S from rfl, Machine.replay_append] at hr
    rw [show i :: S = [i] ++ S from rfl, streamDelivered_append, List.append_assoc] at hin
    cases h1 : (serverMachine L).replay n.server [i] with
    | none => rw [h1] at hr; cases hr
    | some c1 =>
      rw [h1] at hr
      obtain ⟨U1, g1, g2⟩ := server_item h1 hin
        ⟨fun h => ho.1 (by rw [h]; simp), fun b h => ho.2 b (by rw [h]; simp)⟩
      obtain ⟨U2, g3, g4⟩ := ih (n := { n with server := c1, toServer := streamDelivered S ++ rest,
                                               toClient := n.toClient ++ streamOutput [i] }) hr rfl
        ⟨fun h => ho.1 (List.mem_cons_of_mem _ h), fun b h => ho.2 b (List.mem_cons_of_mem _ h)⟩
      refine ⟨U1 ++ U2, ?_, g2.append g4⟩
      rw [List.flatMap_cons, Net.run_append, g1]
      simp only
      rw [g3]
      rw [show i :: S = [i] ++ S from rfl, streamOutput_append]
      simp [Except.map]

/-! ## What is on the way -/

/-- `plain` is on the way from `send` to `recv` if `bytes` are on the way. -/
def Flight (paired : K → K → Prop) : Option (Tls K) → Option (Tls K) → Bytes → Bytes → Prop
  | none, none, bytes, plain => plain = bytes
  | some r, some s, bytes, plain => (s.layer = r.layer ∧ r.layer.Receives ∧ r.layer.Delivers paired) ∧ r.Ready ∧
      s.sendable = [] ∧ ∃ (ds : List Bytes) (k : K), r.layer.Carries r.readKey (r.raw ++ bytes) (ds.map .data) k ∧
        ds.flatten = plain ∧ paired s.writeKey k
  | _, _, _, _ => False

namespace Flight

variable {paired : K → K → Prop} {recv recv' send send' : Option (Tls K)} {bytes plain : Bytes}

theorem inFlight (h : Flight paired recv send bytes plain) : InFlight recv bytes plain := by
  cases recv <;> cases send
  · exact h
  · exact h.elim
  · exact h.elim
  · obtain ⟨-, -, -, ds, k, h1, h2, -⟩ := h
    exact ⟨ds, k, h1, h2⟩

theorem sender (h : Flight paired recv send bytes plain) : Sender paired send := by
  rintro s rfl
  cases recv with
  | none => exact h.elim
  | some r =>
    obtain ⟨⟨h1, h2, h3⟩, -, h4, ds, k, -, -, h5⟩ := h
    exact ⟨h1 ▸ h3, h4, k, h5⟩

theorem receiver (h : Flight paired recv send bytes plain) : Receiver recv := by
  rintro r rfl
  cases send with
  | none => exact h.elim
  | some s => exact ⟨h.1.2.1, h.2.1⟩

theorem sends (h : Flight paired recv send bytes plain) {b out : Bytes} (hs : Sends paired send send' b out) :
    Flight paired recv send' (bytes ++ out) (plain ++ b) := by
  cases recv with
  | none =>
    cases send with
    | some s => exact h.elim
    | none =>
      cases send' with
      | some s => exact hs.elim
      | none => cases h; cases hs; rfl
  | some r =>
    cases send with
    | none => exact h.elim
    | some s =>
      cases send' with
      | none => exact hs.elim
      | some s' =>
        obtain ⟨⟨h1, h2, h3⟩, h4, h5, ds, k, h6, rfl, h7⟩ := h
        obtain ⟨s1, -, s2, s3⟩ := hs
        obtain ⟨ds', k', t1, rfl, t2⟩ := s3 k h7
        refine ⟨⟨s1.trans h1, h2, h3⟩, h4, s2, ds ++ ds', k', ?_, by simp, t2⟩
        rw [← List.append_assoc, List.map_append]
        exact h6.append (h1 ▸ t1)

theorem receives {x y : Bytes} (h : Flight paired recv send (x ++ y) plain) :
    ∃ recv1 p1 p2, Feeds recv recv1 x p1 ∧ Flight paired recv1 send y p2 ∧ plain = p1 ++ p2 := by
  cases recv with
  | none =>
    cases send with
    | some s => exact h.elim
    | none => exact ⟨none, x, y, (rfl : x = x), (rfl : y = y), h⟩
  | some r =>
    cases send with
    | none => exact h.elim
    | some s =>
      obtain ⟨⟨h1, h2, h3⟩, h4, h5, ds, k, h6, rfl, h7⟩ := h
      obtain ⟨r1, p, r2, cs1, cs2, k1, e1, e2, e3, g1, g2, g3⟩ :=
        Tls.carries_prefix h2 h6 (x := r.raw ++ x) (y := y) (by simp)
      obtain ⟨d1, d2, rfl, rfl, rfl⟩ := List.map_eq_append_iff.1 e3
      refine ⟨some { r with readKey := k1, raw := p }, d1.flatten, d2.flatten,
        ⟨r1, p, d1.map .data, k1, e1, g1, by simp, g3, (plaintext_data _).symm, rfl⟩,
        ⟨⟨h1, h2, h3⟩, ⟨h4.plain, h4.open_, h4.readSize, g3⟩, h5, d2, k, ?_, rfl, h7⟩, by simp⟩
      have : p ++ y = r2 := by
        rw [← List.append_assoc, e1, List.append_assoc] at e2
        exact List.append_cancel_left e2
      exact this ▸ g2

theorem same_recv (h : Flight paired recv send bytes plain) (hs : SameRecv recv recv') :
    Flight paired recv' send bytes plain := by
  cases recv with
  | none => cases recv' with
    | none => exact h
    | some => exact hs.elim
  | some r => cases recv' with
    | none => exact hs.elim
    | some r' => cases send with
      | none => exact h.elim
      | some s =>
        simp only [SameRecv] at hs
        rw [hs]
        obtain ⟨h1, h2, h3⟩ := h
        exact ⟨h1, ⟨h2.plain, h2.open_, h2.readSize, h2.raw⟩, h3⟩

/-- If no bytes are on the way, nothing is. -/
theorem empty (h : Flight paired recv send [] plain) : plain = [] := by
  cases recv with
  | none => cases send with
    | none => exact h
    | some => exact h.elim
  | some r => cases send with
    | none => exact h.elim
    | some s =>
      obtain ⟨⟨h1, h2, h3⟩, h4, h5, ds, k, h6, rfl, h7⟩ := h
      rw [List.append_nil] at h6
      cases ds with
      | nil => rfl
      | cons d ds =>
        exfalso
        generalize hb : r.raw = b at h6
        cases h6 with
        | cons g1 g2 =>
          have := h4.raw
          rw [hb, h2.first g1] at this
          cases this

end Flight

/-! ## One stream -/

namespace FullStream

variable {σ ε ev ι : Type}

/-- What an action reads. -/
def actReads : StreamAct ι → Bytes
  | .read b => b
  | _ => []

theorem Advanced.reads {M : Machine σ ε ev ι} {c c' : FullStream K σ} {T : List (FullItem ε ev ι)} (h : Advanced M c c' T) :
    streamRead (streamPart T) = [] := by
  cases h with
  | hung => rfl
  | broken => rfl
  | inputPanic => rfl
  | nextPanic h1 h2 => rw [streamPart_append, streamPart_map, streamRead_append, (provides_quiet h2).2.2.1]; rfl
  | returned h1 h2 => rw [streamPart_map, streamRead_append, (provides_quiet h2).2.2.1, (poll_items _).2.2.1]; rfl
  | waits h1 h2 => rw [streamPart_map, streamRead_append, (provides_quiet h2).2.2.1]; rfl
  | refused h1 h2 =>
    rw [streamPart_append, streamPart_map, streamRead_append, streamRead_append, (provides_quiet h2).2.2.1]; rfl

theorem step_reads {M : Machine σ ε ev ι} {c c' : FullStream K σ} {a : StreamAct ι} {T : List (FullItem ε ev ι)}
    (h : c.step M a = some (c', T)) : streamRead (streamPart T) = actReads a := by
  have hadv : ∀ c : FullStream K σ, streamRead (streamPart (c.advance M).2) = [] := fun c => (advance_cases M c).reads
  cases a with
  | user op =>
    simp only [step] at h
    split at h
    · split at h <;> cases h <;> rfl
    · cases h
  | callNext =>
    simp only [step] at h
    split at h
    · cases h; rw [streamPart_cons]; exact hadv c
    · cases h
  | callFlush =>
    simp only [step] at h
    split at h
    · simp only [startFlush] at h
      split at h <;> cases h <;> rfl
    · cases h
  | read b =>
    have hr : streamRead (streamPart (c.completeRead M b).2) = b := by
      unfold completeRead
      dsimp only
      split
      · rw [streamPart_cons, streamPart_cons]; simp [streamRead, streamPart]
      · rw [streamPart_cons]
        have := hadv { c with readBuffer := c.readBuffer ++ b }
        exact (congrArg (b ++ ·) this).trans (List.append_nil b)
    simp only [step] at h
    split at h <;> first | (cases h; done) | (injection h with h; rw [h] at hr; exact hr)
  | write n =>
    simp only [step] at h
    split at h
    · split at h
      · injection h with h
        unfold completeWrite at h
        dsimp only at h
        split at h
        · cases h; rfl
        split at h
        · cases h; rw [streamPart_cons]; exact hadv _
        · cases h; rfl
      · injection h with h
        unfold completeFlush at h
        dsimp only at h
        split at h
        · cases h; rfl
        split at h
        · cases h; rfl
        · cases h; rfl
      · cases h
    · cases h
  | fail =>
    simp only [step] at h
    split at h <;> cases h <;> rfl
  | drop =>
    simp only [step] at h
    split at h <;> cases h <;> rfl

end FullStream

theorem SideAct.reads_rest {ι : Type} (act : SideAct ι) (wire : Bytes) :
    FullStream.actReads (act.toStream wire) ++ act.rest wire = wire := by
  cases act <;> simp [toStream, rest, FullStream.actReads]

/-- A set of states in which no call panics. -/
structure Machine.Safe {σ ε ev ι : Type} (M : Machine σ ε ev ι) (P : σ → Prop) : Prop where
  input : ∀ {s} b, P s → ∃ s', M.enqueueInput s b = .ok s' ∧ P s'
  next : ∀ {s}, P s → ∃ x, M.next s = .ok x
  user : ∀ {s} op, P s → ∃ s', M.user s op = .ok s'

namespace FullStream

variable {σ ε ev ι : Type}

theorem Advanced.alive {M : Machine σ ε ev ι} {P : σ → Prop} (hM : M.Safe P) {c c' : FullStream K σ}
    {T : List (FullItem ε ev ι)} (h : Advanced M c c' T) (hc : P c.state) :
    c'.ctl ≠ .at .dead ∧ ∀ p, .stream (.panicked p) ∉ T := by
  have hp : ∀ {b s s1 D}, Provides M b s s1 D → P s → P s1 ∧ ∀ p, StreamItem.panicked p ∉ D := by
    rintro b s s1 D (⟨rfl, rfl, rfl⟩ | ⟨-, h1, rfl⟩) hs
    · exact ⟨hs, by simp⟩
    · obtain ⟨s', h2, h3⟩ := hM.input b hs
      rw [h1] at h2
      cases h2
      exact ⟨h3, by simp⟩
  cases h with
  | hung h1 h2 h3 => subst h3; simp
  | broken h1 h2 h3 => subst h3; simp
  | @inputPanic _ _ b _ _ h1 h2 h3 => obtain ⟨s', h4, -⟩ := hM.input b hc; rw [h2] at h4; cases h4
  | nextPanic h1 h2 h3 h4 => obtain ⟨x, h5⟩ := hM.next (hp h2 hc).1; rw [h3] at h5; cases h5
  | @returned _ _ _ _ _ _ r h1 h2 h3 h4 h5 =>
    subst h5
    refine ⟨by simp, fun p hm => ?_⟩
    simp only [List.mem_map, FullItem.stream.injEq, exists_eq_right, List.mem_append] at hm
    refine hm.elim ((hp h2 hc).2 p) ?_
    rcases r with (io | e) | e <;> simp [returns]
  | waits h1 h2 h3 h4 h5 =>
    subst h5
    refine ⟨?_, fun p hm => ?_⟩
    · simp only
      split <;> simp
    · simp only [List.mem_map, FullItem.stream.injEq, exists_eq_right, List.mem_append] at hm
      exact hm.elim ((hp h2 hc).2 p) (by simp)
  | refused h1 h2 h3 h4 h5 =>
    subst h5
    refine ⟨by simp, fun p hm => ?_⟩
    rw [List.mem_append] at hm
    rcases hm with hm | hm
    · simp only [List.mem_map, FullItem.stream.injEq, exists_eq_right, List.mem_append] at hm
      exact hm.elim ((hp h2 hc).2 p) (by simp)
    · simp at hm

theorem Stepped.alive {M : Machine σ ε ev ι} {P : σ → Prop} (hM : M.Safe P) {c c' : FullStream K σ}
    {T : List (FullItem ε ev ι)} (h : Stepped M c c' T) (hc : P c.state) :
    c'.ctl ≠ .at .dead ∧ ∀ p, .stream (.panicked p) ∉ T := by
  cases h with
  | user h1 h2 h3 => subst h3; simp [h1]
  | @userPanic op _ h1 h2 h3 => obtain ⟨s', h4⟩ := hM.user op hc; rw [h2] at h4; cases h4
  | callNext h1 h2 => simpa using h2.alive hM hc
  | read h1 h2 h3 => simpa using h3.alive hM hc
  | written h1 h2 h3 h4 => simpa using h4.alive hM hc
  | wrote h1 h2 h3 h4 =>
    rcases h4 with ⟨h4, rfl, rfl⟩ | ⟨h4, rfl, rfl, rfl⟩
    · rcases h1 with h1 | h1 <;> simp [h1]
    · simp
  | flush h1 h2 h3 =>
    have h4 := (handleOutput_same_recv h2).2.2.2
    rcases h3 with ⟨h3, rfl, rfl⟩ | ⟨h3, rfl, rfl⟩
    · simp [h4, h1]
    · simp
  | ended h1 h2 =>
    subst h1
    rcases h2 with ⟨-, rfl, rfl⟩ | ⟨-, rfl, rfl⟩ | ⟨-, rfl, rfl⟩ | ⟨-, rfl, rfl⟩ | ⟨-, rfl, rfl⟩ <;> simp
  | dropped h1 h2 => subst h2; simp

/-- The stream is in order. -/
structure Sound (c : FullStream K σ) : Prop where
  readBuffer : c.readBuffer = []
  reading : c.ctl = .at .reading → c.writeBuffer = []
  alive : c.ctl ≠ .at .dead ∧ c.ctl ≠ .hung ∧ c.ctl ≠ .broken

/-- One step of a stream that is connected to another one. -/
theorem connected {paired : K → K → Prop} [DecidableEq ε] [DecidableEq ev] {M : Machine σ ε ev ι} {P : σ → Prop}
    (hM : M.Safe P) {c c' : FullStream K σ} {peer : Option (Tls K)} {act : SideAct ι} {wire : Bytes}
    {T : List (FullItem ε ev ι)} (h : c.step M (act.toStream wire) = some (c', T)) (hP : P c.state) (hc : c.Sound)
    {other pin out pout : Bytes} (hin : Flight paired c.tls peer (wire ++ other) pin)
    (hout : Flight paired peer c.tls (out ++ c.writeBuffer) pout) (hr : .refused ∉ T) :
    c'.Sound ∧ (.hung ∉ T ∧ .broken ∉ T ∧ ∀ p, .stream (.panicked p) ∉ T) ∧
      M.replay c.state (streamPart T) = some c'.state ∧
      (∃ rest, pin = streamDelivered (streamPart T) ++ rest ∧ Flight paired c'.tls peer (act.rest wire ++ other) rest) ∧
      Flight paired peer c'.tls (out ++ streamWrote (streamPart T) ++ c'.writeBuffer)
        (pout ++ streamOutput (streamPart T)) := by
  have hs := step_cases h
  have hread := step_reads h
  have hal := hs.alive hM hP
  rw [← act.reads_rest wire, ← hread, List.append_assoc] at hin
  obtain ⟨tls1, p1, p2, f1, f2, rfl⟩ := hin.receives
  have hrecv := hs.recv hc.readBuffer hin.receiver f1
  obtain ⟨a1, a2, a3⟩ := hrecv.alive hal.1
  obtain ⟨⟨o, s1, s2⟩, s3, -⟩ := hs.send hout.sender hc.reading hr
  refine ⟨⟨a2, s3, hal.1, hrecv.ctl⟩, ⟨hrecv.items.1, hrecv.items.2, hal.2⟩, hs.replay hal.1, ⟨p2, by rw [a3], f2.same_recv a1⟩, ?_⟩
  have := hout.sends s1
  rw [List.append_assoc, ← s2, ← List.append_assoc] at this
  exact this

end FullStream

/-! ## No panics -/

theorem clientMachine_safe {L : Lib} (hL : L.Lawful) (g : HandleGenerator) (o : ClientOptions) :
    (clientMachine L).Safe fun c => ∃ ops T, (Client.new g o).trace L ops = .ok (c, T) := by
  have key : ∀ {c : Client} (op : ClientOp), (∃ ops T, (Client.new g o).trace L ops = .ok (c, T)) →
      ∃ c' obs, c.call L op = .ok (c', obs) ∧ ∃ ops T, (Client.new g o).trace L ops = .ok (c', T) := by
    rintro c op ⟨ops, T, h⟩
    obtain ⟨x, hx⟩ := Client.trace_safe hL (Client.new_inv L g o) (ops ++ [op])
    have hx' := hx
    rw [Client.trace_append, h] at hx
    have he := Client.callTrace_erase L c op
    cases hc : c.callTrace L op with
    | error p => simp [Client.trace, hc] at hx
    | ok y =>
      obtain ⟨c', U⟩ := y
      rw [hc] at he
      cases hcall : c.call L op with
      | error p => rw [hcall] at he; cases he
      | ok z =>
        obtain ⟨c1, obs⟩ := z
        rw [hcall] at he
        simp only [Client.eraseRes, Except.map, Except.ok.injEq, Prod.mk.injEq] at he
        obtain ⟨rfl, -⟩ := he
        refine ⟨_, _, rfl, ops ++ [op], T ++ U, ?_⟩
        rw [Client.trace_append, h]
        simp [Client.trace, hc]
  refine ⟨fun {c} b hc => ?_, fun {c} hc => ?_, fun {c} op hc => ?_⟩
  · obtain ⟨c', obs, h1, h2⟩ := key (.enqueueInput b) hc
    simp only [Client.call] at h1
    cases he : c.enqueueInput b with
    | error p => rw [he] at h1; cases h1
    | ok c1 => rw [he] at h1; cases h1; exact ⟨_, he, h2⟩
  · obtain ⟨c', obs, h1, h2⟩ := key .next hc
    simp only [Client.call] at h1
    cases he : c.next L with
    | error p => rw [he] at h1; cases h1
    | ok x => exact ⟨x, he⟩
  · obtain ⟨c', obs, h1, h2⟩ := key op hc
    exact ⟨c', by simp [clientMachine, h1, Except.map]⟩

theorem serverMachine_safe {L : Lib} (hL : L.Lawful) (g : HandleGenerator) {o : ServerOptions}
    (hO : ServerOptions.Built L o) (gr : Greeting) :
    (serverMachine L).Safe fun c => ∃ ops T, (Server.new g o gr).trace L ops = .ok (c, T) := by
  have key : ∀ {c : Server} (op : ServerOp), (∃ ops T, (Server.new g o gr).trace L ops = .ok (c, T)) →
      ∃ c' obs, c.call L op = .ok (c', obs) ∧ ∃ ops T, (Server.new g o gr).trace L ops = .ok (c', T) := by
    rintro c op ⟨ops, T, h⟩
    obtain ⟨x, hx⟩ := Server.trace_safe hL hO.usable (Server.new_inv L g o gr) (ops ++ [op])
    have hx' := hx
    rw [Server.trace_append, h] at hx
    have he := Server.callTrace_erase L c op
    cases hc : c.callTrace L op with
    | error p => simp [Server.trace, hc] at hx
    | ok y =>
      obtain ⟨c', U⟩ := y
      rw [hc] at he
      cases hcall : c.call L op with
      | error p => rw [hcall] at he; cases he
      | ok z =>
        obtain ⟨c1, obs⟩ := z
        rw [hcall] at he
        simp only [Server.eraseRes, Except.map, Except.ok.injEq, Prod.mk.injEq] at he
        obtain ⟨rfl, -⟩ := he
        refine ⟨_, _, rfl, ops ++ [op], T ++ U, ?_⟩
        rw [Server.trace_append, h]
        simp [Server.trace, hc]
  refine ⟨fun {c} b hc => ?_, fun {c} hc => ?_, fun {c} op hc => ?_⟩
  · obtain ⟨c', obs, h1, h2⟩ := key (.enqueueInput b) hc
    simp only [Server.call] at h1
    cases he : c.enqueueInput b with
    | error p => rw [he] at h1; cases h1
    | ok c1 => rw [he] at h1; cases h1; exact ⟨_, he, h2⟩
  · obtain ⟨c', obs, h1, h2⟩ := key .next hc
    simp only [Server.call] at h1
    cases he : c.next L with
    | error p => rw [he] at h1; cases h1
    | ok x => exact ⟨x, he⟩
  · obtain ⟨c', obs, h1, h2⟩ := key op hc
    exact ⟨c', by simp [serverMachine, h1, Except.map]⟩

/-! ## Both streams -/

/-- The streams and the plain system are in the same situation. -/
structure StreamNet.Tracks (paired : K → K → Prop) (sn : StreamNet K) (n : Net) : Prop where
  client : n.client = sn.client.state
  server : n.server = sn.server.state
  clientSound : sn.client.Sound
  serverSound : sn.server.Sound
  toServer : Flight paired sn.server.tls sn.client.tls (sn.toServer ++ sn.client.writeBuffer) n.toServer
  toClient : Flight paired sn.client.tls sn.server.tls (sn.toClient ++ sn.server.writeBuffer) n.toClient

theorem atClient_map_client (T : List (FullItem ClientError ClientEvent ClientOp)) :
    atClient (T.map .client) = streamPart T ∧ atServer (T.map .client) = [] ∧
      (T.map StreamNetItem.client).flatMap StreamNetItem.calls =
        (streamPart T).flatMap fun i => StreamNetItem.calls (.client (.stream i)) := by
  induction T with
  | nil => exact ⟨rfl, rfl, rfl⟩
  | cons x T ih =>
    obtain ⟨h1, h2, h3⟩ := ih
    cases x with
    | stream i => exact ⟨congrArg (i :: ·) h1, h2, congrArg (_ ++ ·) h3⟩
    | _ => exact ⟨h1, h2, h3⟩

theorem atServer_map_server (T : List (FullItem ServerError ServerEvent ServerOp)) :
    atServer (T.map .server) = streamPart T ∧ atClient (T.map .server) = [] ∧
      (T.map StreamNetItem.server).flatMap StreamNetItem.calls =
        (streamPart T).flatMap fun i => StreamNetItem.calls (.server (.stream i)) := by
  induction T with
  | nil => exact ⟨rfl, rfl, rfl⟩
  | cons x T ih =>
    obtain ⟨h1, h2, h3⟩ := ih
    cases x with
    | stream i => exact ⟨congrArg (i :: ·) h1, h2, congrArg (_ ++ ·) h3⟩
    | _ => exact ⟨h1, h2, h3⟩

/-- A call of the user is the action. -/
theorem user_item {σ ε ev ι : Type} {M : Machine σ ε ev ι} {c c' : FullStream K σ} {act : SideAct ι} {wire : Bytes}
    {T : List (FullItem ε ev ι)} {op : ι} (h : c.step M (act.toStream wire) = some (c', T))
    (hm : StreamItem.user op ∈ streamPart T) : act = .user op := by
  have hp : ∀ {b s s1 D}, Provides M b s s1 D → StreamItem.user op ∉ D := by
    rintro b s s1 D (⟨rfl, rfl, rfl⟩ | ⟨-, h1, rfl⟩) <;> simp
  have hadv : ∀ {c c' : FullStream K σ} {T}, FullStream.Advanced M c c' T → StreamItem.user op ∉ streamPart T := by
    intro c c' T hA
    cases hA with
    | hung => simp [streamPart, FullItem.stream?]
    | broken => simp [streamPart, FullItem.stream?]
    | inputPanic => simp [streamPart, FullItem.stream?]
    | nextPanic h1 h2 =>
      have := hp h2
      rw [streamPart_append, streamPart_map]; simp [streamPart, FullItem.stream?, this]
    | @returned _ _ _ _ _ _ r h1 h2 =>
      have := hp h2
      rw [streamPart_map]
      rcases r with (io | e) | e <;> simp [returns, this]
    | waits h1 h2 =>
      have := hp h2
      rw [streamPart_map]; simp [this]
    | refused h1 h2 =>
      have := hp h2
      rw [streamPart_append, streamPart_map]; simp [streamPart, FullItem.stream?, this]
  have hadv : ∀ c : FullStream K σ, StreamItem.user op ∉ streamPart (c.advance M).2 :=
    fun c => hadv (FullStream.advance_cases M c)
  cases act with
  | user op' =>
    simp only [SideAct.toStream, FullStream.step] at h
    split at h
    · split at h <;> cases h <;> simp [streamPart, FullItem.stream?] at hm <;> rw [hm]
    · cases h
  | callNext =>
    exfalso
    simp only [SideAct.toStream, FullStream.step] at h
    split at h
    · cases h; rw [streamPart_cons] at hm; simp at hm; exact hadv c hm
    · cases h
  | callFlush =>
    exfalso
    simp only [SideAct.toStream, FullStream.step] at h
    split at h
    · simp only [FullStream.startFlush] at h
      split at h <;> cases h <;> simp [streamPart, FullItem.stream?] at hm
    · cases h
  | read b =>
    exfalso
    have hr : ∀ b, StreamItem.user op ∉ streamPart (c.completeRead M b).2 := by
      intro b
      unfold FullStream.completeRead
      dsimp only
      split
      · rw [streamPart_cons, streamPart_cons]; simp [streamPart]
      · rw [streamPart_cons]
        have := hadv { c with readBuffer := c.readBuffer ++ b }
        simp [this]
    simp only [SideAct.toStream, FullStream.step] at h
    split at h <;> first | (cases h; done) | (injection h with h; have := hr (wire.take b); rw [h] at this; exact this hm)
  | write n =>
    exfalso
    simp only [SideAct.toStream, FullStream.step] at h
    split at h
    · split at h
      · injection h with h
        unfold FullStream.completeWrite at h
        dsimp only at h
        split at h
        · cases h; simp [streamPart, FullItem.stream?] at hm
        split at h
        · cases h; rw [streamPart_cons] at hm; simp at hm; exact hadv _ hm
        · cases h; simp [streamPart, FullItem.stream?] at hm
      · injection h with h
        unfold FullStream.completeFlush at h
        dsimp only at h
        split at h
        · cases h; simp [streamPart, FullItem.stream?] at hm
        split at h
        · cases h; simp [streamPart, FullItem.stream?] at hm
        · cases h; simp [streamPart, FullItem.stream?] at hm
      · cases h
    · cases h
  | fail =>
    exfalso
    simp only [SideAct.toStream, FullStream.step] at h
    split at h <;> cases h <;> simp [streamPart, FullItem.stream?] at hm
  | drop =>
    exfalso
    simp only [SideAct.toStream, FullStream.step] at h
    split at h <;> cases h <;> simp [streamPart, FullItem.stream?] at hm

namespace StreamNet

variable {paired : K → K → Prop} {L : Lib} 

section

variable {P : Client → Prop}

/-- A step at the client. -/
theorem Tracks.clientStep {sn sn' : StreamNet K} {n : Net} {act : SideAct ClientOp} {G : List StreamNetItem}
    (hM : (clientMachine L).Safe P) (hP : P n.client) (h : Tracks paired sn n)
    (hs : sn.clientStep L act = some (sn', G)) (ha : act ≠ .user .next ∧ ∀ b, act ≠ .user (.enqueueInput b))
    (hr : .client .refused ∉ G) :
    ∃ n' U, n.run L (G.flatMap StreamNetItem.calls) = .ok (n', U.map .client) ∧ Tracks paired sn' n' ∧
      ClientRecord (atClient G) U ∧ atServer G = [] ∧ Healthy G := by
  simp only [StreamNet.clientStep] at hs
  split at hs
  · cases hs
  · rename_i c' T hst
    simp only [Option.some.injEq, Prod.mk.injEq] at hs
    obtain ⟨rfl, rfl⟩ := hs
    obtain ⟨e1, e2, e3⟩ := atClient_map_client T
    have hin := h.toClient
    have hout := h.toServer
    rw [h.client] at hP
    obtain ⟨h1, ⟨h2, h3, h4⟩, h5, ⟨rest, h6, h7⟩, h8⟩ := FullStream.connected hM hst hP h.clientSound hin hout (by simpa using hr)
    have huser : ∀ op, StreamItem.user op ∈ streamPart T → act = .user op := by
      intro op hm
      exact user_item hst hm
    obtain ⟨U, u1, u2⟩ := client_items (L := L) (n := n) (S := streamPart T) (c' := c'.state) (rest := rest)
      (by rw [h.client]; exact h5) h6 ⟨fun hm => ha.1 (huser _ hm), fun b hm => ha.2 b (huser _ hm)⟩
    rw [e3, e1, e2]
    refine ⟨_, U, u1, ⟨rfl, h.server, h1, h.serverSound, h8, h7⟩, u2, rfl, ?_⟩
    exact ⟨⟨by simpa using h2, by simpa using h3, by simpa using h4⟩, by simp, by simp, by simp⟩

end

section

variable {P : Server → Prop}

/-- A step at the server. -/
theorem Tracks.serverStep {sn sn' : StreamNet K} {n : Net} {act : SideAct ServerOp} {G : List StreamNetItem}
    (hM : (serverMachine L).Safe P) (hP : P n.server) (h : Tracks paired sn n)
    (hs : sn.serverStep L act = some (sn', G)) (ha : act ≠ .user .next ∧ ∀ b, act ≠ .user (.enqueueInput b))
    (hr : .server .refused ∉ G) :
    ∃ n' U, n.run L (G.flatMap StreamNetItem.calls) = .ok (n', U.map .server) ∧ Tracks paired sn' n' ∧
      ServerRecord (atServer G) U ∧ atClient G = [] ∧ Healthy G := by
  simp only [StreamNet.serverStep] at hs
  split at hs
  · cases hs
  · rename_i c' T hst
    simp only [Option.some.injEq, Prod.mk.injEq] at hs
    obtain ⟨rfl, rfl⟩ := hs
    obtain ⟨e1, e2, e3⟩ := atServer_map_server T
    have hin := h.toServer
    have hout := h.toClient
    rw [h.server] at hP
    obtain ⟨h1, ⟨h2, h3, h4⟩, h5, ⟨rest, h6, h7⟩, h8⟩ := FullStream.connected hM hst hP h.serverSound hin hout (by simpa using hr)
    have huser : ∀ op, StreamItem.user op ∈ streamPart T → act = .user op := by
      intro op hm
      exact user_item hst hm
    obtain ⟨U, u1, u2⟩ := server_items (L := L) (n := n) (S := streamPart T) (c' := c'.state) (rest := rest)
      (by rw [h.server]; exact h5) h6 ⟨fun hm => ha.1 (huser _ hm), fun b hm => ha.2 b (huser _ hm)⟩
    rw [e3, e1, e2]
    refine ⟨_, U, u1, ⟨h.client, rfl, h.clientSound, h1, h7, h8⟩, u2, rfl, ?_⟩
    exact ⟨⟨by simp, by simp, by simp⟩, by simpa using h2, by simpa using h3, by simpa using h4⟩

end

theorem step_sides {sn sn' : StreamNet K} {a : StreamNetAct} {G : List StreamNetItem} (h : sn.step L a = some (sn', G)) :
    (∃ act, a = .client act ∧ sn.clientStep L act = some (sn', G) ∧ act ≠ .user .next ∧ ∀ b, act ≠ .user (.enqueueInput b)) ∨
    ∃ act, a = .server act ∧ sn.serverStep L act = some (sn', G) ∧ act ≠ .user .next ∧ ∀ b, act ≠ .user (.enqueueInput b) := by
  cases a with
  | client act =>
    left
    refine ⟨act, rfl, ?_⟩
    unfold step at h
    split at h <;> simp_all
  | server act =>
    right
    refine ⟨act, rfl, ?_⟩
    unfold step at h
    split at h <;> simp_all

theorem run_cons {sn sn' : StreamNet K} {a : StreamNetAct} {as : List StreamNetAct} {G : List StreamNetItem}
    (h : sn.run L (a :: as) = some (sn', G)) :
    ∃ sn1 G1 G2, sn.step L a = some (sn1, G1) ∧ sn1.run L as = some (sn', G2) ∧ G = G1 ++ G2 := by
  simp only [run] at h
  split at h
  · cases h
  · rename_i sn1 G1 hs
    split at h
    · cases h
    · rename_i sn2 G2 hr
      simp only [Option.some.injEq, Prod.mk.injEq] at h
      obtain ⟨rfl, rfl⟩ := h
      exact ⟨sn1, G1, G2, hs, hr, rfl⟩

/-- Every run of the streams is a run of the plain system. -/
theorem Tracks.run (hL : L.Lawful) {gc gs : HandleGenerator} {oc : ClientOptions} {os : ServerOptions} {gr : Greeting}
    (hO : ServerOptions.Built L os) {sn sn' : StreamNet K} {n : Net} {ops : List NetOp} {T : List NItem}
    {as : List StreamNetAct} {G : List StreamNetItem} (hn : (Net.new gc oc gs os gr).run L ops = .ok (n, T))
    (h : Tracks paired sn n) (hs : sn.run L as = some (sn', G)) (hr : .client .refused ∉ G ∧ .server .refused ∉ G) :
    ∃ n' U, n.run L (G.flatMap StreamNetItem.calls) = .ok (n', U) ∧ Tracks paired sn' n' ∧
      ClientRecord (atClient G) (clientItems U) ∧ ServerRecord (atServer G) (serverItems U) ∧ Healthy G := by
  induction as generalizing sn n ops T G with
  | nil =>
    cases hs
    exact ⟨n, [], rfl, h, ⟨rfl, rfl, rfl, fun _ => rfl, by simp [atClient]⟩, ⟨rfl, rfl, rfl, rfl, fun _ => rfl, by simp [atServer], rfl⟩,
      by simp [Healthy]⟩
  | cons a as ih =>
    obtain ⟨sn1, G1, G2, h1, h2, rfl⟩ := run_cons hs
    simp only [List.mem_append, not_or] at hr
    have hl := Net.run_linked hn
    have key : ∃ n1 U1, n.run L (G1.flatMap StreamNetItem.calls) = .ok (n1, U1) ∧ Tracks paired sn1 n1 ∧
        ClientRecord (atClient G1) (clientItems U1) ∧ ServerRecord (atServer G1) (serverItems U1) ∧ Healthy G1 := by
      rcases step_sides h1 with ⟨act, -, h3, h4⟩ | ⟨act, -, h3, h4⟩
      · obtain ⟨cops, hc⟩ := hl.client
        obtain ⟨n1, U, g1, g2, g3, g4, g5⟩ :=
          h.clientStep (clientMachine_safe hL gc oc) ⟨cops, _, hc⟩ h3 h4 hr.1.1
        refine ⟨n1, _, g1, g2, ?_, ?_, g5⟩
        · rw [clientItems_map_client]; exact g3
        · rw [serverItems_map_client, g4]; exact ⟨rfl, rfl, rfl, rfl, fun _ => rfl, by simp, rfl⟩
      · obtain ⟨sops, hc⟩ := hl.server
        obtain ⟨n1, U, g1, g2, g3, g4, g5⟩ :=
          h.serverStep (serverMachine_safe hL gs hO gr) ⟨sops, _, hc⟩ h3 h4 hr.2.1
        refine ⟨n1, _, g1, g2, ?_, ?_, g5⟩
        · rw [clientItems_map_server, g4]; exact ⟨rfl, rfl, rfl, fun _ => rfl, by simp⟩
        · rw [serverItems_map_server]; exact g3
    obtain ⟨n1, U1, k1, k2, k3, k4, k5⟩ := key
    have hn1 : (Net.new gc oc gs os gr).run L (ops ++ G1.flatMap StreamNetItem.calls) = .ok (n1, T ++ U1) := by
      rw [Net.run_append, hn]
      simp [k1, Except.map]
    obtain ⟨n2, U2, i1, i2, i3, i4, i5⟩ := ih hn1 k2 h2 ⟨hr.1.2, hr.2.2⟩
    refine ⟨n2, U1 ++ U2, ?_, i2, ?_, ?_, ?_⟩
    · rw [List.flatMap_append, Net.run_append, k1]
      simp [i1, Except.map]
    · rw [clientItems_append]
      show ClientRecord (List.filterMap _ _) _
      rw [List.filterMap_append]
      exact k3.append i3
    · rw [serverItems_append]
      show ServerRecord (List.filterMap _ _) _
      rw [List.filterMap_append]
      exact k4.append i4
    · obtain ⟨⟨a1, a2, a3⟩, a4, a5, a6⟩ := k5
      obtain ⟨⟨b1, b2, b3⟩, b4, b5, b6⟩ := i5
      simp only [Healthy, List.mem_append, not_or]
      exact ⟨⟨⟨a1, b1⟩, ⟨a2, b2⟩, fun p => ⟨a3 p, b3 p⟩⟩, ⟨a4, b4⟩, ⟨a5, b5⟩, fun p => ⟨a6 p, b6 p⟩⟩

/-- New streams. -/
theorem new_tracks {tc ts : Option (Tls K)} (hh : Handshaken paired tc ts) (gc gs : HandleGenerator) (oc : ClientOptions)
    (os : ServerOptions) (gr : Greeting) : Tracks paired (StreamNet.new tc ts gc oc gs os gr) (Net.new gc oc gs os gr) := by
  have key : Flight paired ts tc [] [] ∧ Flight paired tc ts [] [] := by
    cases tc with
    | none => cases ts with
      | none => exact ⟨(rfl : ([] : Bytes) = []), (rfl : ([] : Bytes) = [])⟩
      | some => exact hh.elim
    | some t => cases ts with
      | none => exact hh.elim
      | some u =>
        obtain ⟨⟨h1, h2, h3⟩, ⟨a1, a2, a3, a4⟩, b1, b2, b3, b4⟩ := hh
        refine ⟨⟨⟨h1.symm, h1 ▸ h2, h1 ▸ h3⟩, b1, a3, [], _, ?_, rfl, a4⟩, ⟨⟨h1, h2, h3⟩, a1, b3, [], _, ?_, rfl, b4⟩⟩
        · rw [b2]; exact .nil _
        · rw [a2]; exact .nil _
  refine ⟨rfl, rfl, ⟨rfl, nofun, by simp [new]⟩, ⟨rfl, nofun, by simp [new]⟩, key.1, key.2⟩

/-! ## Projections -/

/-- The items of the stream of the client. -/
def clientPart (G : List StreamNetItem) : List (FullItem ClientError ClientEvent ClientOp) :=
  G.filterMap fun | .client i => some i | _ => none

/-- The items of the stream of the server. -/
def serverPart (G : List StreamNetItem) : List (FullItem ServerError ServerEvent ServerOp) :=
  G.filterMap fun | .server i => some i | _ => none

theorem clientPart_spec (G : List StreamNetItem) : streamPart (clientPart G) = atClient G ∧
    ∀ i, i ∈ clientPart G ↔ .client i ∈ G := by
  constructor
  · unfold streamPart clientPart atClient
    rw [List.filterMap_filterMap]
    congr 1
    funext x
    rcases x with (_ | _ | _ | _) | _ <;> rfl
  · intro i
    unfold clientPart
    rw [List.mem_filterMap]
    constructor
    · rintro ⟨x, hx, h⟩
      cases x <;> simp at h
      rwa [← h]
    · exact fun h => ⟨_, h, rfl⟩

theorem serverPart_spec (G : List StreamNetItem) : streamPart (serverPart G) = atServer G ∧
    ∀ i, i ∈ serverPart G ↔ .server i ∈ G := by
  constructor
  · unfold streamPart serverPart atServer
    rw [List.filterMap_filterMap]
    congr 1
    funext x
    rcases x with _ | (_ | _ | _ | _) <;> rfl
  · intro i
    unfold serverPart
    rw [List.mem_filterMap]
    constructor
    · rintro ⟨x, hx, h⟩
      cases x <;> simp at h
      rwa [← h]
    · exact fun h => ⟨_, h, rfl⟩

/-- Each side of a run is a run of its stream. -/
theorem run_parts {sn sn' : StreamNet K} {as : List StreamNetAct} {G : List StreamNetItem}
    (h : sn.run L as = some (sn', G)) :
    (∃ cs, sn.client.run (clientMachine L) cs = some (sn'.client, clientPart G)) ∧
    ∃ ss, sn.server.run (serverMachine L) ss = some (sn'.server, serverPart G) := by
  induction as generalizing sn G with
  | nil => cases h; exact ⟨⟨[], rfl⟩, [], rfl⟩
  | cons a as ih =>
    obtain ⟨sn1, G1, G2, h1, h2, rfl⟩ := run_cons h
    obtain ⟨⟨cs, hc⟩, ss, hs⟩ := ih h2
    have hmc : ∀ T : List (FullItem ClientError ClientEvent ClientOp),
        clientPart (T.map .client) = T ∧ serverPart (T.map .client) = [] := by
      intro T
      induction T with
      | nil => exact ⟨rfl, rfl⟩
      | cons x T ih => exact ⟨congrArg (x :: ·) ih.1, ih.2⟩
    have hms : ∀ T : List (FullItem ServerError ServerEvent ServerOp),
        serverPart (T.map .server) = T ∧ clientPart (T.map .server) = [] := by
      intro T
      induction T with
      | nil => exact ⟨rfl, rfl⟩
      | cons x T ih => exact ⟨congrArg (x :: ·) ih.1, ih.2⟩
    have hcp : clientPart (G1 ++ G2) = clientPart G1 ++ clientPart G2 := List.filterMap_append ..
    have hsp : serverPart (G1 ++ G2) = serverPart G1 ++ serverPart G2 := List.filterMap_append ..
    rw [hcp, hsp]
    rcases step_sides h1 with ⟨act, -, h3, -⟩ | ⟨act, -, h3, -⟩
    · simp only [clientStep] at h3
      split at h3
      · cases h3
      · rename_i c' T hst
        cases h3
        rw [(hmc T).1, (hmc T).2]
        exact ⟨⟨act.toStream sn.toClient :: cs, by simp only [FullStream.run, hst]; simp only at hc; rw [hc]⟩, ss, hs⟩
    · simp only [serverStep] at h3
      split at h3
      · cases h3
      · rename_i c' T hst
        cases h3
        rw [(hms T).1, (hms T).2]
        exact ⟨⟨cs, hc⟩, act.toStream sn.toServer :: ss, by simp only [FullStream.run, hst]; simp only at hs; rw [hs]⟩

end StreamNet

end ImapFlow
