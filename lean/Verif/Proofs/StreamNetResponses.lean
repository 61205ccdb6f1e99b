import Verif.Proofs.StreamNetWait
import Verif.Proofs.NetDrained
import Verif.Proofs.ProxyEvents

/-!
# Two streams: data and statuses

Lemmas for C51: with regular commands the client reports exactly the data and statuses that the user of the server
enqueues.
-/

namespace ImapFlow

variable {L : Lib} {gc gs : HandleGenerator} {oc : ClientOptions} {os : ServerOptions} {gr : Greeting} {n : Net}
  {T : List NItem}

/-- Data or a status. -/
def Incoming.told? : Incoming → Option Response
  | .response r => r.told?
  | .greeting _ => none

theorem GoodCommands.current (hc : GoodCommands L os (clientItems T)) {A B : List CItem} (e : clientItems T = A ++ B)
    {x : RawHandle × Command} (h : (ClientView.of A).current = some x) : x.2.isRegular = true := by
  refine hc.regular x ?_
  have hm : x ∈ (ClientView.of A).enqueued := by
    unfold ClientView.current at h
    split at h
    · cases h
    exact List.mem_of_mem_drop (List.mem_of_mem_head? h)
  rw [(ClientView.of_fields A).2.2.1] at hm
  have he : clientEnqueued (clientItems T) = clientEnqueued A ++ clientEnqueued B := by
    rw [e, clientEnqueued_append]
  rw [he]
  exact List.mem_append_left _ hm

/-- The events of a client with regular commands that are not rejected. -/
theorem Net.Linked.told_item (hL : L.Lawful) (h : Net.Linked L gc oc gs os gr n T)
    (hc : GoodCommands L os (clientItems T)) {i : CItem} (hi : i ∈ clientItems T) :
    ((i.result?.bind Except.toOption).bind ClientEvent.told?).toList = (i.decoded L).filterMap Incoming.told? := by
  obtain ⟨ops, ht⟩ := h.client
  obtain ⟨A, B, e⟩ := List.append_of_mem hi
  have ht' := ht
  rw [e] at ht'
  have hv := Client.trace_guard hL ht'
  cases i with
  | sent e =>
    obtain ⟨-, hd, cmd, q, -, ⟨rfl, -⟩ | ⟨rfl, -⟩ | ⟨rfl, -⟩ | ⟨rfl, -⟩⟩ := hv <;> rfl
  | received w ev =>
    obtain ⟨-, -, ⟨-, g, rfl, -⟩ | ⟨-, r, hr, -⟩⟩ := hv
    · rfl
    · rcases ClientView.route_cases hr with ⟨d, rfl⟩ | ⟨st, rfl⟩ | ⟨q, rfl, rfl⟩ | ⟨hd, cmd, hcur, hx⟩
      · rfl
      · rfl
      · rfl
      · have hreg := hc.current e hcur
        rcases hx with ⟨st, rfl, -⟩ | ⟨_, _, -, hx⟩ | ⟨_, -, hx⟩ | ⟨_, -, hx, -⟩ | ⟨_, -, hx, -⟩
        · refine (hc.accepted hd cmd st ?_).elim
          exact List.mem_filterMap.2 ⟨_, hi, rfl⟩
        all_goals
          exfalso
          simp only at hreg
          cases hb : cmd.body <;> simp [Command.isRegular, Command.isAuthenticate, Command.isIdle, hb] at hreg hx
  | released w =>
    obtain ⟨-, -, -, q, -, p, l, -, -, -, -, hd⟩ := hv
    have hd : L.decodeResponse w = .ok ([], .continuationRequest q) := hd
    simp only [CItem.decoded, hd]
    rfl
  | _ => rfl

theorem Net.Linked.events_told (hL : L.Lawful) (h : Net.Linked L gc oc gs os gr n T)
    (hc : GoodCommands L os (clientItems T))
    {S : List (StreamItem ClientError ClientEvent ClientOp)} (hS : ClientRecord S (clientItems T))
    (he : events S = S.filterMap fun i => i.poll?.bind Except.toOption) :
    (events S).filterMap ClientEvent.told? = (clientDecoded L (clientItems T)).filterMap Incoming.told? := by
  have h1 : events S = ((clientItems T).filterMap CItem.result?).filterMap Except.toOption := by
    rw [he, hS.results, List.filterMap_filterMap]
  rw [h1, List.filterMap_filterMap, List.filterMap_filterMap]
  have key : ∀ U : List CItem, (∀ i ∈ U, i ∈ clientItems T) →
      U.filterMap (fun i => (i.result?.bind Except.toOption).bind ClientEvent.told?) =
        (clientDecoded L U).filterMap Incoming.told? := by
    intro U
    induction U with
    | nil => intro; rfl
    | cons i U ih =>
      intro hU
      have ih := ih fun j hj => hU j (List.mem_cons_of_mem _ hj)
      rw [show clientDecoded L (i :: U) = i.decoded L ++ clientDecoded L U from rfl, List.filterMap_append, ← ih,
        ← h.told_item hL hc (hU i (List.mem_cons_self ..))]
      rw [List.filterMap_cons]
      cases (i.result?.bind Except.toOption).bind ClientEvent.told? <;> rfl
  rw [← key _ fun _ h => h]
  refine filterMap_congr' fun i _ => ?_
  cases i.result? <;> rfl

theorem Net.Linked.messages_told (hL : L.Lawful) (h : Net.Linked L gc oc gs os gr n T) (hmax : 0 < os.maxCommandSize)
    (hc : GoodCommands L os (clientItems T)) :
    ((serverMessages gr (serverItems T)).map ServerMessage.content).filterMap Incoming.told? =
      (serverItems T).filterMap SItem.told? := by
  obtain ⟨ops, hs⟩ := h.server
  have hfail : ∀ e rs, .failed e rs ∉ serverItems T := by
    intro e rs hi
    obtain ⟨k, -, h2, -⟩ := h.commands hL hmax hc (T1 := serverItems T) (T2 := []) (by simp)
    have : SItem.failed e rs ∈ (serverItems T).filter SItem.reads := List.mem_filter.mpr ⟨hi, rfl⟩
    rw [h2] at this
    obtain ⟨x, -, hx⟩ := List.mem_map.mp this
    cases hx
  have key : ∀ U V : List SItem, serverItems T = V ++ U →
      ((U.flatMap SItem.enqueues).map ServerMessage.content).filterMap Incoming.told? = U.filterMap SItem.told? := by
    intro U
    induction U with
    | nil => intros; rfl
    | cons i U ih =>
      intro V e
      have ih := ih (V ++ [i]) (by simpa using e)
      have hs' := hs
      rw [e] at hs'
      have hv := Server.trace_guard hs'
      obtain ⟨-, -, -, hph⟩ := h.commands hL hmax hc e
      have hph' : (ServerView.of gr V).phase = .command := by rw [ServerView.of_phase, hph]
      rw [List.flatMap_cons, List.map_append, List.filterMap_append, ih, List.filterMap_cons]
      cases i with
      | enqueue hd r => cases r <;> rfl
      | authContinue q r =>
        cases r with
        | error _ => rfl
        | ok hd => obtain ⟨hp, -⟩ | ⟨-, hp⟩ := hv
                   · rw [hph'] at hp; cases hp
                   · cases hp
      | authFinish q r =>
        cases r with
        | error _ => rfl
        | ok hd => obtain ⟨hp, -⟩ | ⟨-, hp⟩ := hv
                   · rw [hph'] at hp; cases hp
                   · cases hp
      | idleAccept q r =>
        cases r with
        | error _ => rfl
        | ok hd => obtain ⟨hp, -⟩ | ⟨-, hp⟩ := hv
                   · rw [hph'] at hp; cases hp
                   · cases hp
      | idleReject q r =>
        cases r with
        | error _ => rfl
        | ok hd => obtain ⟨hp, -⟩ | ⟨-, hp⟩ := hv
                   · rw [hph'] at hp; cases hp
                   · cases hp
      | literal p rs =>
        obtain ⟨-, -, -, -, -, tag, k, mode, -, -, rfl⟩ := hv
        show (List.map _ (acceptReply L os mode)).filterMap _ ++ _ = _
        have : (List.map ServerMessage.content (acceptReply L os mode)).filterMap Incoming.told? = [] := by
          rw [List.filterMap_eq_nil_iff]
          intro x hx
          obtain ⟨m, hm, rfl⟩ := List.mem_map.1 hx
          unfold acceptReply at hm
          repeat' split at hm
          all_goals first
            | (cases hm; done)
            | (rw [List.mem_singleton] at hm; subst hm; rfl)
        rw [this]
        rfl
      | failed er rs => exact (hfail er rs (by rw [e]; simp)).elim
      | _ => rfl
  rw [← key (serverItems T) [] rfl]
  rfl

/-- The events of a server that receives regular commands. -/
theorem Net.Linked.events_only (hL : L.Lawful) (h : Net.Linked L gc oc gs os gr n T) (hmax : 0 < os.maxCommandSize)
    (hc : GoodCommands L os (clientItems T))
    {S : List (StreamItem ServerError ServerEvent ServerOp)} (hS : ServerRecord S (serverItems T))
    (he : events S = S.filterMap fun i => i.poll?.bind Except.toOption) {e : ServerEvent} (hm : e ∈ events S) :
    (∃ g, e = .greetingSent g) ∨ (∃ hd r, e = .responseSent hd r) ∨ ∃ c, c.isRegular = true ∧ e = .commandReceived c := by
  have h1 : events S = ((serverItems T).filterMap SItem.result?).filterMap Except.toOption := by
    rw [he, hS.results, List.filterMap_filterMap]
  rw [h1, List.filterMap_filterMap] at hm
  obtain ⟨i, hi, hie⟩ := List.mem_filterMap.1 hm
  obtain ⟨v, hv⟩ := h.server_guard hi
  cases i with
  | sent e' =>
    cases hie
    obtain ⟨-, m, -, hm⟩ := hv
    cases m with
    | greeting g => cases hm; exact .inl ⟨_, rfl⟩
    | response hd r => cases hd <;> cases hm; exact .inr (.inl ⟨_, _, rfl⟩)
  | received w e' =>
    cases hie
    obtain ⟨k, -, h2, -⟩ := h.commands hL hmax hc (T1 := serverItems T) (T2 := []) (by simp)
    have : SItem.received w e ∈ (serverItems T).filter SItem.reads := List.mem_filter.mpr ⟨hi, rfl⟩
    rw [h2] at this
    obtain ⟨x, hx, hx'⟩ := List.mem_map.mp this
    cases hx'
    exact .inr (.inr ⟨x.2, hc.regular x (List.mem_of_mem_take hx), rfl⟩)
  | _ => cases hie

end ImapFlow
