import Verif.Proofs.DialogueTold
import Verif.Props.C13

/-!
# A tagged status is reported after the command
-/

namespace ImapFlow

variable {L : Lib} {gc gs : HandleGenerator} {oc : ClientOptions} {os : ServerOptions} {gr : Greeting} {n : Net}
  {T : List NItem}

/-- When the client reports a status with a tag, the command with this tag has ended. -/
theorem Net.Linked.status_after (hL : L.Lawful) (h : Net.Linked L gc oc gs os gr n T) (hO : ServerOptions.Built L os)
    (hrt : ∀ m ∈ serverMessages gr (serverItems T), m.RoundTrip L oc) (hmax : 0 < os.maxCommandSize)
    (hF : FairClient L os (clientItems T)) (hP : OrderlyServer (serverItems T)) {P Q : List NItem} {w : Bytes} {t : Tag}
    {b : StatusBody} (hT : T = P ++ .client (.received w (.statusReceived (.tagged t b))) :: Q) :
    t ∈ (ClientView.of (clientItems P)).endedTags := by
  obtain ⟨D, fl, ht⟩ := h.together hL hO hrt hmax hF hP hT
  have hT' : T = (P ++ [.client (.received w (.statusReceived (.tagged t b)))]) ++ Q := by rw [hT]; simp
  have hC : clientItems T = clientItems P ++ .received w (.statusReceived (.tagged t b)) :: clientItems Q := by
    rw [hT, clientItems_append]; rfl
  have hS : serverItems T = serverItems P ++ serverItems Q := by rw [hT, serverItems_append]; rfl
  have hmem : .status (.tagged t b) ∈ (serverItems P).filterMap SItem.told? := by
    have h1 := h.told hL hO hrt hmax hF hP hT'
    rw [clientItems_append, serverItems_append, List.filterMap_append] at h1
    have h2 : Response.status (.tagged t b) ∈ ((serverLog gr (serverItems P)).take
        (clientDecoded L (clientItems P ++ clientItems [.client (.received w (.statusReceived (.tagged t b)))])).length).filterMap toldOf := by
      rw [show serverItems [.client (.received w (.statusReceived (.tagged t b)))] = [] from rfl, List.append_nil] at h1
      rw [← h1]
      exact List.mem_append_right _ (List.mem_singleton.2 rfl)
    rw [← serverLog_told (gr := gr)]
    exact ((List.take_sublist _ _).filterMap _).mem h2
  obtain ⟨i, hi, hi'⟩ := List.mem_filterMap.1 hmem
  have hcomp : t ∈ (serverDialogue (serverItems P)).completed := by
    cases i with
    | enqueue hd r =>
      cases r with
      | status st =>
        cases hi'
        obtain ⟨S1, S2, hS1⟩ := List.append_of_mem hi
        have := hP S1 (.enqueue hd (.status (.tagged t b))) (S2 ++ serverItems Q) (by rw [hS, hS1]; simp)
        rw [hS1]
        exact serverDialogue_mono this
      | _ => cases hi'
    | _ => cases hi'
  obtain ⟨cops, hct⟩ := h.client
  obtain ⟨sops, hst⟩ := h.server
  have hg := (h.causal P _ hT).2
  rw [hC] at hct hF
  rw [hS] at hst
  obtain ⟨s, hinv⟩ := Server.prefix_inv hst
  have hguard := Client.trace_guard hL hct
  obtain ⟨hw, -, ⟨-, g, he, -⟩ | ⟨hgr, -⟩⟩ := hguard
  · cases he
  · have hw := hw hgr
    rcases ht.core.completed t hcomp with h1 | ⟨x, h1, h2, -⟩
    · exact h1
    · exact (ht.not_current hF hw hinv hg hcomp h1 h2.symm).elim

/-- The same for the list of events. -/
theorem Net.Linked.status_reports (hL : L.Lawful) (h : Net.Linked L gc oc gs os gr n T) (hO : ServerOptions.Built L os)
    (hrt : ∀ m ∈ serverMessages gr (serverItems T), m.RoundTrip L oc) (hmax : 0 < os.maxCommandSize)
    (hF : FairClient L os (clientItems T)) (hP : OrderlyServer (serverItems T)) {E1 E2 : List ClientEvent} {t : Tag}
    {b : StatusBody} (he : (clientItems T).filterMap CItem.event? = E1 ++ .statusReceived (.tagged t b) :: E2) :
    ∃ hd cmd, (hd, cmd) ∈ clientEnqueued (clientItems T) ∧ cmd.tag = t ∧ ∃ e ∈ E1, e.isTerminal = true ∧ e.Reports hd cmd := by
  obtain ⟨A1, A2, hA, h1, h2⟩ := List.filterMap_eq_append_iff.1 he
  obtain ⟨A3, i, A4, rfl, h3, h4, h5⟩ := List.filterMap_eq_cons_iff.1 h2
  have hA' : clientItems T = (A1 ++ A3) ++ i :: A4 := by rw [hA]; simp
  obtain ⟨P, Q, hPQ, hP1, hQ⟩ := List.filterMap_eq_append_iff.1 hA'
  obtain ⟨Q1, j, Q2, rfl, hQ1, hj, hQ2⟩ := List.filterMap_eq_cons_iff.1 hQ
  obtain ⟨cops, hct⟩ := h.client
  have hj' : j = .client i := by
    cases j with
    | client k => cases hj; rfl
    | server k => cases hj
  subst hj'
  obtain ⟨w, rfl⟩ : ∃ w, i = .received w (.statusReceived (.tagged t b)) := by
    rw [hA'] at hct
    have hv := Client.trace_guard hL hct
    cases i with
    | received w e => cases h4; exact ⟨w, rfl⟩
    | sent e => cases h4; obtain ⟨-, hd, cmd, q, -, ⟨h, -⟩ | ⟨h, -⟩ | ⟨h, -⟩ | ⟨h, -⟩⟩ := hv <;> cases h
    | _ => cases h4
  have ht := h.status_after hL hO hrt hmax hF hP (P := P ++ Q1) (Q := Q2) (w := w) (t := t) (b := b) (by rw [hPQ]; simp)
  have e1 : clientItems (P ++ Q1) = A1 ++ A3 := by
    unfold clientItems
    rw [List.filterMap_append, hP1, List.filterMap_eq_nil_iff.2 hQ1, List.append_nil]
  rw [e1] at ht
  obtain ⟨x, hx, hxt⟩ := List.mem_map.1 ht
  obtain ⟨k, hk, hkx⟩ := List.mem_iff_getElem.1 hx
  rw [List.length_take] at hk
  obtain ⟨-, -, f1, f2, -⟩ := ClientView.of_fields (A1 ++ A3)
  have hk' : k < (clientTerminals (A1 ++ A3)).length := by rw [← f2, List.length_map]; omega
  have hterm : (clientTerminals (clientItems T))[k]? = some ((clientTerminals (A1 ++ A3))[k]) := by
    rw [hA', clientTerminals_append, List.getElem?_append_left hk', List.getElem?_eq_getElem hk']
  have henq : (clientEnqueued (clientItems T))[k]? = some x := by
    have hl : k < (clientEnqueued (A1 ++ A3)).length := by rw [← f1]; omega
    rw [hA', clientEnqueued_append, List.getElem?_append_left hl, List.getElem?_eq_getElem hl]
    rw [List.getElem_take] at hkx
    simp only [f1] at hkx
    rw [hkx]
  obtain ⟨hd, cmd, h6, h7⟩ := C13_terminal_events hL hct hterm
  rw [henq] at h6
  cases h6
  refine ⟨hd, cmd, List.mem_of_getElem? henq, hxt, _, ?_, ?_, h7⟩
  · rw [← h1]
    have hm := List.getElem_mem hk'
    obtain ⟨y, hy, hyt⟩ := List.mem_filterMap.1 hm
    obtain ⟨hye, -⟩ := Option.filter_eq_some_iff.1 hyt
    rcases List.mem_append.1 hy with hy | hy
    · exact List.mem_filterMap.2 ⟨y, hy, hye⟩
    · rw [h3 y hy] at hye; cases hye
  · obtain ⟨y, -, hyt⟩ := List.mem_filterMap.1 (List.getElem_mem hk')
    exact (Option.filter_eq_some_iff.1 hyt).2

end ImapFlow
