import Verif.Proofs.ServerReads

/-!
# Responses generated by the server itself

At most one of them is unsent at any time, and none when the server asks for more input.
-/

namespace ImapFlow

/-- The message was generated by the server itself. -/
def ServerMessage.own : ServerMessage → Bool
  | .response none _ => true
  | _ => false

theorem ServerMessage.own_iff (m : ServerMessage) : m.own = true ↔ m.event = none := by
  cases m with
  | greeting g => simp [own, event]
  | response h r => cases h <;> simp [own, event]

theorem acceptReply_length (L : Lib) (o : ServerOptions) (mode : LiteralMode) : (acceptReply L o mode).length ≤ 1 := by
  cases mode with
  | nonSync => exact Nat.zero_le _
  | sync =>
    unfold acceptReply
    simp only
    split
    · split <;> simp
    · simp

theorem rejectReply_length (o : ServerOptions) (tag : Tag) (mode : LiteralMode) : (rejectReply o tag mode).length ≤ 1 := by
  cases mode with
  | nonSync => exact Nat.zero_le _
  | sync =>
    unfold rejectReply
    simp only
    split <;> simp

theorem Discarded.replies_length {L : Lib} {o : ServerOptions} {p : ServerPhase} {e : ServerError}
    {rs : List ServerMessage} (h : Discarded L o p e rs) : rs.length ≤ 1 := by
  cases p with
  | authenticate => rw [h.1]; simp
  | idle => rw [h.1]; simp
  | idlePending => exact h.elim
  | command =>
    cases e with
    | literalTooLong w =>
      obtain ⟨-, tag, k, mode, -, -, rfl⟩ := h
      exact rejectReply_length ..
    | malformedMessage w => rw [h.1]; simp
    | expectedCrlfGotLf w => rw [h.1]; simp
    | commandTooLong w => rw [h.1]; simp

namespace Server

variable {L : Lib} {g : HandleGenerator} {o : ServerOptions} {gr : Greeting} {ops : List ServerOp}
  {s : Server} {T T1 T2 : List SItem} {i : SItem}

/-- The number of unfinished messages generated by the server itself. -/
def ownPending (v : ServerView) : Nat := (v.messages.drop v.finished).countP ServerMessage.own

theorem ownPending_le (h : (Server.new g o gr).trace L ops = .ok (s, T1 ++ T2)) :
    ownPending (.of gr T1) ≤ 1 ∧ ((ServerView.of gr T1).quiet = true → ownPending (.of gr T1) = 0) := by
  induction T1 using snocInduction generalizing T2 with
  | nil => exact ⟨Nat.zero_le 1, fun h => by cases h⟩
  | snoc T i ih =>
    have h' : (Server.new g o gr).trace L ops = .ok (s, T ++ (i :: T2)) := by simpa using h
    obtain ⟨ih1, ih2⟩ := ih h'
    obtain ⟨s1, hinv⟩ := Server.prefix_inv h'
    have hg := Server.trace_guard h'
    have hle : (ServerView.of gr T).finished ≤ (ServerView.of gr T).messages.length := by
      obtain ⟨-, ⟨-, hb, -, hd⟩, -⟩ := hinv
      cases hc : s1.sendState.currentMessage with
      | none => rw [hc] at hd; simp only at hd; omega
      | some m => rw [hc] at hd; have := hd.1; omega
    rw [ServerView.of_snoc]
    generalize ServerView.of gr T = v at ih1 ih2 hg hle
    have same : ∀ v' : ServerView, v'.messages = v.messages → v'.finished = v.finished → v'.quiet = false →
        ownPending v' ≤ 1 ∧ (v'.quiet = true → ownPending v' = 0) := by
      intro v' h1 h2 h3
      unfold ownPending
      rw [h1, h2, h3]
      exact ⟨ih1, fun h => by cases h⟩
    have user : ∀ (v' : ServerView) (hd : RawHandle) (r : Response), v'.messages = v.messages ++ [.response (some hd) r] →
        v'.finished = v.finished → v'.quiet = false →
        ownPending v' ≤ 1 ∧ (v'.quiet = true → ownPending v' = 0) := by
      intro v' hd r h1 h2 h3
      unfold ownPending
      rw [h1, h2, h3, List.drop_append_of_le_length hle, List.countP_append]
      refine ⟨?_, fun h => by cases h⟩
      have ih1' : (v.messages.drop v.finished).countP ServerMessage.own ≤ 1 := ih1
      simpa [ServerMessage.own, List.countP_cons] using ih1'
    have own : ∀ (v' : ServerView) (rs : List ServerMessage), rs.length ≤ 1 → v.Clear → v'.messages = v.messages ++ rs →
        v'.finished = v.finished → v'.quiet = false →
        ownPending v' ≤ 1 ∧ (v'.quiet = true → ownPending v' = 0) := by
      intro v' rs hrs hc h1 h2 h3
      have h0 : ownPending v = 0 := by
        rcases hc with ⟨hc1, hc2 | hc2⟩
        · exact ih2 hc2
        · unfold ownPending
          rw [hc1, hc2]
          simp
      unfold ownPending at h0 ⊢
      rw [h1, h2, h3, List.drop_append_of_le_length hle, List.countP_append, h0]
      refine ⟨?_, fun h => by cases h⟩
      have := List.countP_le_length (p := ServerMessage.own) (l := rs)
      omega
    cases i with
    | enqueue hd r => exact user _ _ _ rfl rfl rfl
    | authContinue q r => cases r <;> first | exact same _ rfl rfl rfl | exact user _ _ _ rfl rfl rfl
    | authFinish q r => cases r <;> first | exact same _ rfl rfl rfl | exact user _ _ _ rfl rfl rfl
    | idleAccept q r => cases r <;> first | exact same _ rfl rfl rfl | exact user _ _ _ rfl rfl rfl
    | idleReject q r => cases r <;> first | exact same _ rfl rfl rfl | exact user _ _ _ rfl rfl rfl
    | input b => exact same _ rfl rfl rfl
    | output b => exact same _ rfl rfl rfl
    | starved => exact same _ rfl rfl rfl
    | received w e => exact same _ rfl rfl rfl
    | literal p rs =>
      obtain ⟨hc, -, -, -, -, tag, k, mode, -, -, rfl⟩ := hg
      exact own _ _ (acceptReply_length ..) hc rfl rfl rfl
    | failed e rs => exact own _ _ hg.2.2.1.replies_length hg.1 rfl rfl rfl
    | sent e =>
      obtain ⟨-, m, hm, he⟩ := hg
      have hd : v.messages.drop v.finished = m :: v.messages.drop (v.finished + 1) := by
        obtain ⟨hlt, rfl⟩ := List.getElem?_eq_some_iff.mp hm
        exact List.drop_eq_getElem_cons hlt
      unfold ownPending at ih1 ⊢
      refine ⟨?_, fun h => by cases h⟩
      rw [hd, List.countP_cons] at ih1
      show (v.messages.drop (v.finished + 1)).countP ServerMessage.own ≤ 1
      omega
    | quiet =>
      obtain ⟨-, m, hm, he⟩ := hg
      have hd : v.messages.drop v.finished = m :: v.messages.drop (v.finished + 1) := by
        obtain ⟨hlt, rfl⟩ := List.getElem?_eq_some_iff.mp hm
        exact List.drop_eq_getElem_cons hlt
      have ho : m.own = true := m.own_iff.mpr he
      unfold ownPending at ih1 ⊢
      rw [hd, List.countP_cons, if_pos ho] at ih1
      have h0 : (v.messages.drop (v.finished + 1)).countP ServerMessage.own = 0 := by omega
      exact ⟨Nat.le_trans (Nat.le_of_eq h0) (Nat.zero_le 1), fun _ => h0⟩

theorem enqueues_not_greeting {v : ServerView} {gr' : Greeting} (hg : Guard L o v i) (h : .greeting gr' ∈ i.enqueues) :
    False := by
  cases i with
  | authContinue q r => cases r <;> simp [SItem.enqueues] at h
  | authFinish q r => cases r <;> simp [SItem.enqueues] at h
  | idleAccept q r => cases r <;> simp [SItem.enqueues] at h
  | idleReject q r => cases r <;> simp [SItem.enqueues] at h
  | literal p rs =>
    obtain ⟨-, -, -, -, -, tag, k, mode, -, -, rfl⟩ := hg
    have h' : .greeting gr' ∈ acceptReply L o mode := h
    cases mode with
    | nonSync => cases h'
    | sync =>
      unfold acceptReply at h'
      simp only at h'
      split at h'
      · split at h' <;> simp at h'
      · simp at h'
  | failed e rs =>
    have hd := hg.2.2.1
    have h' : .greeting gr' ∈ rs := h
    generalize v.phase = p at hd
    cases p with
    | authenticate => rw [hd.1] at h'; cases h'
    | idle => rw [hd.1] at h'; cases h'
    | idlePending => exact hd
    | command =>
      cases e with
      | literalTooLong w =>
        obtain ⟨-, tag, k, mode, -, -, rfl⟩ := hd
        cases mode with
        | nonSync => cases h'
        | sync =>
          unfold rejectReply at h'
          simp only at h'
          split at h' <;> simp at h'
      | malformedMessage w => rw [hd.1] at h'; cases h'
      | expectedCrlfGotLf w => rw [hd.1] at h'; cases h'
      | commandTooLong w => rw [hd.1] at h'; cases h'
  | _ => simp [SItem.enqueues] at h

theorem quiet_snoc (T : List SItem) (i : SItem) (h : (ServerView.of gr (T ++ [i])).quiet = true) : i = .quiet := by
  rw [ServerView.of_snoc] at h
  cases i with
  | quiet => rfl
  | authContinue q r => cases r <;> cases h
  | authFinish q r => cases r <;> cases h
  | idleAccept q r => cases r <;> cases h
  | idleReject q r => cases r <;> cases h
  | _ => cases h

end Server

end ImapFlow
