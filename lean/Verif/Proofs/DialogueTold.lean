import Verif.Proofs.DialogueDrained
import Verif.Proofs.StreamDialogue
import Verif.Proofs.RelayTurn

/-!
# The responses outside of the dialogues
-/

namespace ImapFlow

variable {L : Lib} {gc gs : HandleGenerator} {oc : ClientOptions} {os : ServerOptions} {gr : Greeting} {n : Net} {T : List NItem}

/-- Data or a status that was reported (outside of a dialogue). -/
def CItem.told? : CItem → Option Response
  | .received _ e => e.told?
  | _ => none

/-- The message is data or a status outside of the dialogues. -/
def toldOf : ServerMessage × Option Underway → Option Response
  | (.response (some _) r, none) => r.told?
  | _ => none

/-- All data and statuses of the user of the server. -/
theorem serverLog_told (S : List SItem) : (serverLog gr S).filterMap toldOf = S.filterMap SItem.told? := by
  have key : ∀ i : SItem, i.log.filterMap toldOf = i.told?.toList := by
    intro i
    have lit : ∀ rs : List ServerMessage, (rs.map fun m => (m, some Underway.literal)).filterMap toldOf = [] := by
      intro rs
      induction rs with
      | nil => rfl
      | cons m rs ih =>
        rw [List.map_cons, List.filterMap_cons]
        cases m with
        | greeting => exact ih
        | response hd r => cases hd <;> exact ih
    cases i with
    | enqueue h r => cases r <;> rfl
    | authContinue q r => cases r <;> rfl
    | authFinish q r => cases r <;> rfl
    | idleAccept q r => cases r <;> rfl
    | idleReject q r => cases r <;> rfl
    | literal p rs => exact lit rs
    | failed p rs => exact lit rs
    | _ => rfl
  have all : ∀ S : List SItem, (S.flatMap SItem.log).filterMap toldOf = S.filterMap SItem.told? := by
    intro S
    induction S with
    | nil => rfl
    | cons i S ih =>
      rw [List.flatMap_cons, List.filterMap_append, ih, key, List.filterMap_cons]
      cases i.told? <;> rfl
  exact all S

/-- The client reports data and statuses in the order of the messages it reads. -/
theorem Net.Linked.told (hL : L.Lawful) (h : Net.Linked L gc oc gs os gr n T) (hO : ServerOptions.Built L os)
    (hrt : ∀ m ∈ serverMessages gr (serverItems T), m.RoundTrip L oc) (hmax : 0 < os.maxCommandSize)
    (hF : FairClient L os (clientItems T)) (hP : OrderlyServer (serverItems T)) {P Q : List NItem} (hT : T = P ++ Q) :
    (clientItems P).filterMap CItem.told? =
      ((serverLog gr (serverItems P)).take (clientDecoded L (clientItems P)).length).filterMap toldOf := by
  induction P using snocInduction generalizing Q with
  | nil => rfl
  | snoc P it ih =>
    have hT' : T = P ++ it :: Q := by rw [hT]; simp
    have IH := ih hT'
    cases it with
    | server j =>
      have hC : clientItems (P ++ [.server j]) = clientItems P := by
        rw [clientItems_append]; exact List.append_nil _
      have hS : serverItems (P ++ [.server j]) = serverItems P ++ [j] := by rw [serverItems_append]; rfl
      have hle := h.decoded_le hL hrt hT'
      rw [← serverLog_messages, List.length_map] at hle
      rw [hC, hS, serverLog_snoc, List.take_append_of_le_length hle]
      exact IH
    | client i =>
      have hC : clientItems (P ++ [.client i]) = clientItems P ++ [i] := by rw [clientItems_append]; rfl
      have hS : serverItems (P ++ [.client i]) = serverItems P := by
        rw [serverItems_append]; exact List.append_nil _
      have hdec : clientDecoded L (clientItems P ++ [i]) = clientDecoded L (clientItems P) ++ i.decoded L := by
        rw [clientDecoded_append]
        simp [clientDecoded]
      obtain ⟨D, fl, t1⟩ := h.together hL hO hrt hmax hF hP hT'
      obtain ⟨D', fl', t2⟩ := h.together hL hO hrt hmax hF hP hT
      rw [hC, hS] at t2
      rw [hC, hS, List.filterMap_append, IH, hdec]
      have hex := t2.expected i (by simp)
      -- a message is read
      have reads : ∀ r : Incoming, i.decoded L = [r] → (∀ r', r = .response r' → i.told? = if i.answer? = none then r'.told? else none) →
          (∀ g, r = .greeting g → i.told? = none) →
          ((serverLog gr (serverItems P)).take (clientDecoded L (clientItems P)).length).filterMap toldOf ++
              [i].filterMap CItem.told? =
            ((serverLog gr (serverItems P)).take (clientDecoded L (clientItems P) ++ i.decoded L).length).filterMap toldOf := by
        intro r hr ht hg
        obtain ⟨m, h1, -, h2, -⟩ := h.next_message hL hrt hT' hr
        rw [← serverLog_messages, List.getElem?_map] at h1
        obtain ⟨⟨m', o⟩, h3, h4⟩ := Option.map_eq_some_iff.1 h1
        have h4 : m' = m := h4
        subst h4
        have hlt := (List.getElem?_eq_some_iff.1 h3).1
        rw [hr, List.length_append, List.length_singleton, List.take_add_one, List.filterMap_append, h3]
        congr 1
        have f1 := t1.flight
        have f2 := t2.flight
        rw [hdec, hr, List.length_append, List.length_singleton] at f2
        have hdrop : (serverLog gr (serverItems P)).drop (clientDecoded L (clientItems P)).length =
            (m', o) :: (serverLog gr (serverItems P)).drop ((clientDecoded L (clientItems P)).length + 1) := by
          rw [List.drop_eq_getElem_cons hlt, (List.getElem?_eq_some_iff.1 h3).2]
        rw [hdrop, List.filterMap_cons] at f1
        have a1 := t1.answers
        have a2 := t2.answers
        rw [clientAnswers_snoc] at a2
        cases o with
        | none =>
          have hfl : fl = fl' := by
            rw [f2] at f1
            cases fl <;> cases fl' <;> simp_all
          subst hfl
          have : i.answer? = none := by
            rw [a1, List.append_assoc] at a2
            have := List.append_cancel_left a2
            cases ha : i.answer? with
            | none => rfl
            | some a =>
              rw [ha] at this
              have := congrArg List.length this
              simp at this
          cases m' with
          | greeting g' =>
            have := hg _ h2.symm
            simp [this, toldOf]
          | response hd r' =>
            have h5 := ht _ h2.symm
            rw [if_pos this] at h5
            have : hd ≠ none := by
              rintro rfl
              rcases serverLog_plain (List.mem_of_getElem? h3) with h | ⟨_, _, _, _, -, h⟩ <;> cases h
            cases hd with
            | none => exact (this rfl).elim
            | some hd =>
              cases r' <;> simp [h5, toldOf, Response.told?]
        | some f =>
          have hfl : fl = some f ∧ fl' = none := by
            rw [f2] at f1
            cases fl <;> cases fl' <;> simp_all
          obtain ⟨rfl, rfl⟩ := hfl
          have h6 : toldOf (m', some f) = none := by cases m' with
            | greeting => rfl
            | response hd _ => cases hd <;> rfl
          have h7 : i.told? = none := by
            cases m' with
            | greeting g' => exact hg _ h2.symm
            | response hd r' =>
              rw [ht _ h2.symm]
              cases f with
              | answer a =>
                rw [if_neg]
                intro hn
                rw [a1, hn] at a2
                have := congrArg List.length a2
                simp [flightAnswers] at this
              | literal =>
                obtain ⟨sops, hst⟩ := h.server
                have hST : serverItems T = serverItems P ++ serverItems Q := by rw [hT', serverItems_append]; rfl
                rw [hST] at hst
                cases serverLog_literal hO hst t1.accepted (List.mem_of_getElem? h3)
                simp [Response.told?]
          simp [h6, h7]
      have none : i.decoded L = [] → i.told? = none →
          ((serverLog gr (serverItems P)).take (clientDecoded L (clientItems P)).length).filterMap toldOf ++
              [i].filterMap CItem.told? =
            ((serverLog gr (serverItems P)).take (clientDecoded L (clientItems P) ++ i.decoded L).length).filterMap toldOf := by
        intro h1 h2
        rw [h1, List.append_nil]
        simp [h2]
      cases i with
      | received w e =>
        cases e with
        | greetingReceived g => exact reads _ rfl nofun fun _ _ => rfl
        | dataReceived d => exact reads _ rfl (fun r' h => by cases h; rfl) nofun
        | statusReceived st => exact reads _ rfl (fun r' h => by cases h; rfl) nofun
        | commandRejected => exact hex.elim
        | continuationRequestReceived q => exact hex.elim
        | authenticateContinuationRequestReceived hd q => exact reads _ rfl (fun r' h => by cases h; rfl) nofun
        | authenticateStatusReceived hd c st => exact reads _ rfl (fun r' h => by cases h; rfl) nofun
        | idleAccepted hd q => exact reads _ rfl (fun r' h => by cases h; rfl) nofun
        | idleRejected hd st => exact reads _ rfl (fun r' h => by cases h; rfl) nofun
        | _ => exact none rfl rfl
      | released w =>
        have hCT : clientItems T = clientItems P ++ .released w :: clientItems Q := by rw [hT', clientItems_append]; rfl
        obtain ⟨cops, hct⟩ := h.client
        rw [hCT] at hct
        obtain ⟨-, -, -, q, -, p, l, -, -, -, -, hd⟩ := Client.trace_guard hL hct
        have hd : L.decodeResponse w = .ok ([], .continuationRequest q) := hd
        exact reads (.response (.continuationRequest q)) (by simp only [CItem.decoded, hd]) (fun r' h => by cases h; rfl) nofun
      | _ => exact none rfl rfl

/-- The client reports data and statuses of the user of the server in order. -/
theorem Net.Linked.told_prefix (hL : L.Lawful) (h : Net.Linked L gc oc gs os gr n T) (hO : ServerOptions.Built L os)
    (hrt : ∀ m ∈ serverMessages gr (serverItems T), m.RoundTrip L oc) (hmax : 0 < os.maxCommandSize)
    (hF : FairClient L os (clientItems T)) (hP : OrderlyServer (serverItems T)) :
    (clientItems T).filterMap CItem.told? <+: (serverItems T).filterMap SItem.told? := by
  rw [h.told hL hO hrt hmax hF hP (Q := []) (by simp), ← serverLog_told (gr := gr)]
  exact (List.take_prefix _ _).filterMap _

/-- At rest, the client has reported all of them. -/
theorem Net.Linked.told_starved (hL : L.Lawful) (h : Net.Linked L gc oc gs os gr n T) (hO : ServerOptions.Built L os)
    (hrt : ∀ m ∈ serverMessages gr (serverItems T), m.RoundTrip L oc) (hmax : 0 < os.maxCommandSize)
    (hF : FairClient L os (clientItems T)) (hP : OrderlyServer (serverItems T)) {A : List CItem} {B : List SItem}
    (hA : clientItems T = A ++ [.starved]) (hB : serverItems T = B ++ [.starved]) (h1 : n.toServer = [])
    (h2 : n.toClient = []) :
    (clientItems T).filterMap CItem.told? = (serverItems T).filterMap SItem.told? := by
  have hd := h.drained_fair hL hO hrt hmax hF hP hA hB h1 h2
  rw [h.told hL hO hrt hmax hF hP (Q := []) (by simp), ← serverLog_told (gr := gr), hd, List.length_map, ← serverLog_messages,
    List.length_map, List.take_length]

/-- Only messages that are read are reported as data or statuses. -/
theorem Client.told_events (hL : L.Lawful) {ops : List ClientOp} {c : Client} {A : List CItem}
    (hA : (Client.new gc oc).trace L ops = .ok (c, A)) :
    (A.filterMap CItem.event?).filterMap ClientEvent.told? = A.filterMap CItem.told? := by
  rw [List.filterMap_filterMap]
  refine filterMap_congr' fun i hi => ?_
  obtain ⟨a, b, hab⟩ := List.append_of_mem hi
  rw [hab] at hA
  have hv := Client.trace_guard hL hA
  cases i with
  | sent e => obtain ⟨-, hd, cmd, q, -, ⟨rfl, -⟩ | ⟨rfl, -⟩ | ⟨rfl, -⟩ | ⟨rfl, -⟩⟩ := hv <;> rfl
  | _ => rfl

theorem Net.Linked.events_told_fair (hL : L.Lawful) (h : Net.Linked L gc oc gs os gr n T)
    {S : List (StreamItem ClientError ClientEvent ClientOp)} (hS : ClientRecord S (clientItems T))
    (he : events S = S.filterMap fun i => i.poll?.bind Except.toOption) :
    (events S).filterMap ClientEvent.told? = (clientItems T).filterMap CItem.told? := by
  have h1 : events S = ((clientItems T).filterMap CItem.result?).filterMap Except.toOption := by
    rw [he, hS.results, List.filterMap_filterMap]
  rw [h1, List.filterMap_filterMap, List.filterMap_filterMap]
  refine filterMap_congr' fun i hi => ?_
  obtain ⟨v, hv⟩ := h.client_guard hL hi
  cases i with
  | sent e => obtain ⟨-, hd, cmd, q, -, ⟨rfl, -⟩ | ⟨rfl, -⟩ | ⟨rfl, -⟩ | ⟨rfl, -⟩⟩ := hv <;> rfl
  | received w e => cases e <;> rfl
  | _ => rfl

end ImapFlow
