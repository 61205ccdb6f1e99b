import Verif.Proofs.ClientInv
import Verif.Proofs.Lists

/-!
# The observer's view in terms of the trace
-/

namespace ImapFlow

theorem clientGiven_append (T U : List CItem) : clientGiven (T ++ U) = clientGiven T ++ clientGiven U := by
  simp [clientGiven]

theorem clientTaken_append (T U : List CItem) : clientTaken (T ++ U) = clientTaken T ++ clientTaken U := by
  simp [clientTaken]

theorem clientOutput_append (T U : List CItem) : clientOutput (T ++ U) = clientOutput T ++ clientOutput U := by
  simp [clientOutput]

theorem clientEnqueued_append (T U : List CItem) :
    clientEnqueued (T ++ U) = clientEnqueued T ++ clientEnqueued U := by
  simp [clientEnqueued]

theorem clientTerminals_append (T U : List CItem) :
    clientTerminals (T ++ U) = clientTerminals T ++ clientTerminals U := by
  simp [clientTerminals]

theorem ClientView.of_snoc (T : List CItem) (i : CItem) : of (T ++ [i]) = (of T).observe i := by
  simp [of]

theorem ClientView.observe_fields (v : ClientView) (i : CItem) :
    (v.observe i).given = v.given ++ i.given ∧ (v.observe i).consumed = v.consumed ++ i.taken ∧
    (v.observe i).enqueued = v.enqueued ++ i.enqueues ∧
    (v.observe i).ended.map ClientEnded.event = v.ended.map ClientEnded.event ++ i.terminal?.toList ∧
    ((v.observe i).ended.flatMap ClientEnded.sent ++ (v.observe i).sent =
      v.ended.flatMap ClientEnded.sent ++ v.sent ++ i.outputs) := by
  cases i with
  | setAuth d r => cases r <;> simp [observe, CItem.given, CItem.taken, CItem.enqueues, CItem.terminal?,
      CItem.event?, CItem.outputs]
  | setDone r => cases r <;> simp [observe, CItem.given, CItem.taken, CItem.enqueues, CItem.terminal?,
      CItem.event?, CItem.outputs]
  | sent e => cases e <;> simp [observe, CItem.given, CItem.taken, CItem.enqueues, CItem.terminal?,
      CItem.event?, CItem.outputs, event, ClientEvent.isTerminal, terminate] <;> rfl
  | received w e => cases e <;> simp [observe, CItem.given, CItem.taken, CItem.enqueues, CItem.terminal?,
      CItem.event?, CItem.outputs, event, ClientEvent.isTerminal, terminate] <;> rfl
  | _ => simp [observe, CItem.given, CItem.taken, CItem.enqueues, CItem.terminal?,
      CItem.event?, CItem.outputs]

theorem ClientView.of_fields (T : List CItem) :
    (of T).given = clientGiven T ∧ (of T).consumed = clientTaken T ∧
    (of T).enqueued = clientEnqueued T ∧ (of T).ended.map ClientEnded.event = clientTerminals T ∧
    (of T).ended.flatMap ClientEnded.sent ++ (of T).sent = clientOutput T := by
  induction T using snocInduction with
  | nil => exact ⟨rfl, rfl, rfl, rfl, rfl⟩
  | snoc T i ih =>
    obtain ⟨h1, h2, h3, h4, h5⟩ := ih
    obtain ⟨g1, g2, g3, g4, g5⟩ := (of T).observe_fields i
    rw [of_snoc, g1, g2, g3, g4, g5, h1, h2, h3, h4, h5]
    refine ⟨?_, ?_, ?_, ?_, ?_⟩
    · rw [clientGiven_append]; simp [clientGiven]
    · rw [clientTaken_append]; simp [clientTaken]
    · rw [clientEnqueued_append]; simp [clientEnqueued]
    · rw [clientTerminals_append]
      unfold clientTerminals
      cases h : i.terminal? <;> simp [h]
    · rw [clientOutput_append]; simp [clientOutput]

theorem ClientView.of_greeted (T : List CItem) : (of T).greeted = true ↔ clientGreeted T := by
  induction T using snocInduction with
  | nil => simp [of, start, clientGreeted]
  | snoc T i ih =>
    rw [of_snoc]
    have : clientGreeted (T ++ [i]) ↔ clientGreeted T ∨ ∃ g, i.event? = some (.greetingReceived g) := by
      unfold clientGreeted
      constructor
      · rintro ⟨j, h, hg⟩
        rcases List.mem_append.mp h with h | h
        · exact .inl ⟨j, h, hg⟩
        · rw [List.mem_singleton.mp h] at hg
          exact .inr hg
      · rintro (⟨j, h, hg⟩ | hg)
        · exact ⟨j, by simp [h], hg⟩
        · exact ⟨i, by simp, hg⟩
    rw [this, ← ih]
    cases i with
    | setAuth d r => cases r <;> simp [observe, CItem.event?]
    | setDone r => cases r <;> simp [observe, CItem.event?]
    | sent e => cases e <;> simp [observe, event, ClientEvent.isTerminal, terminate, CItem.event?]
    | received w e => cases e <;> simp [observe, event, ClientEvent.isTerminal, terminate, CItem.event?]
    | _ => simp [observe, CItem.event?]

end ImapFlow
