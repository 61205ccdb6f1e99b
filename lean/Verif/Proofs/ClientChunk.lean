import Verif.Proofs.Receive
import Verif.Proofs.Chunk
import Verif.Spec.ClientHistory

/-!
# The client is a deterministic function of its input stream
-/

namespace ImapFlow

variable {ε μ : Type}

/-- Append input to the state of a result. -/
def extRes {ε α : Type} (x : Bytes) : Res ReceiveState ε α → Res ReceiveState ε α
  | .error p => .error p
  | .ok (s, r) => .ok (s.enqueueInput x, r)

theorem finishWith_ext {ε α : Type} {s : ReceiveState} {m : α} (x : Bytes)
    (h : s.seenBytes ≤ s.readBuffer.length) :
    finishWith (ε := ε) (s.enqueueInput x) m = extRes x (finishWith s m) := by
  unfold finishWith
  rw [ReceiveState.finishMessage_eq h, ReceiveState.finishMessage_eq (s := s.enqueueInput x)
    (by show s.seenBytes ≤ (s.readBuffer ++ x).length; simp; omega)]
  simp only [extRes, Except.ok.injEq, Prod.mk.injEq, and_true]
  show ReceiveState.withReadBuffer _ _ ((s.readBuffer ++ x).drop s.seenBytes) = _
  rw [List.drop_append_of_le_length h]
  rfl

theorem discardWith_ext {ε α : Type} {s : ReceiveState} {mk : Bytes → ε} (x : Bytes)
    (h : s.seenBytes ≤ s.readBuffer.length) :
    discardWith (α := α) (s.enqueueInput x) mk = extRes x (discardWith s mk) := by
  unfold discardWith
  rw [ReceiveState.discardMessage_eq h, ReceiveState.discardMessage_eq (s := s.enqueueInput x)
    (by show s.seenBytes ≤ (s.readBuffer ++ x).length; simp; omega)]
  simp only [extRes, Except.ok.injEq, Prod.mk.injEq, Except.error.injEq, Interrupt.error.injEq]
  have e1 : (s.enqueueInput x).readBuffer.take (s.enqueueInput x).seenBytes =
      s.readBuffer.take s.seenBytes := List.take_append_of_le_length h
  rw [e1]
  refine ⟨?_, rfl⟩
  show ReceiveState.withReadBuffer _ _ ((s.readBuffer ++ x).drop s.seenBytes) = _
  rw [List.drop_append_of_le_length h]
  rfl

/-- The next fragment does not matter for discarding. -/
theorem discardWith_frag {ε α : Type} {s : ReceiveState} {f : NextFragment} {mk : Bytes → ε} :
    discardWith (α := α) { s with nextFragment := f } mk = discardWith s mk := rfl

theorem receiveResponse_eq (L : Lib) (s : ReceiveState) :
    receiveResponse L s =
      match s.next L.decodeResponse with
      | .error p => .error p
      | .ok (s1, .ok response) => finishWith s1 response
      | .ok (s1, .error (.io io)) => .ok (s1, .error (.io io))
      | .ok (s1, .error (.error (.decodingFailure (.literalFound length)))) =>
        receiveResponse L (s1.startLiteral length)
      | .ok (s1, .error (.error (.decodingFailure .failed))) => discardWith s1 .malformedMessage
      | .ok (s1, .error (.error (.decodingFailure .incomplete))) => discardWith s1 .malformedMessage
      | .ok (s1, .error (.error .expectedCrlfGotLf)) => discardWith s1 .expectedCrlfGotLf
      | .ok (_, .error (.error .messageTooLong)) => .error .unreachableCode := by
  rw [receiveResponse]
  split <;> simp_all

theorem ReceiveState.Sound.startLiteral {s : ReceiveState} (h : s.Sound) (k : Nat) :
    (s.startLiteral k).Sound := ⟨h.1, trivial⟩

theorem receiveResponse_ext {L : Lib} {s : ReceiveState} (h : s.Sound) (x : Bytes) :
    (∃ s1, receiveResponse L s = .ok (s1, .error (.io .needMoreInput))) ∨
    receiveResponse L (s.enqueueInput x) = extRes x (receiveResponse L s) := by
  fun_induction receiveResponse L s with
  | case1 s p heq =>
    right
    rcases ReceiveState.next_enqueue (dec := L.decodeResponse) h x with ⟨s1, h1⟩ | h1
    · rw [heq] at h1; cases h1
    · rw [heq] at h1
      rw [receiveResponse_eq]
      generalize (s.enqueueInput x).next L.decodeResponse = out at *
      cases h1
      rfl
  | case2 s s1 resp heq =>
    right
    have hst := ReceiveState.next_state h heq
    rcases ReceiveState.next_enqueue (dec := L.decodeResponse) h x with ⟨s1, h1⟩ | h1
    · rw [heq] at h1; simp at h1
    · rw [heq] at h1
      rw [receiveResponse_eq]
      generalize (s.enqueueInput x).next L.decodeResponse = out at *
      cases h1
      exact finishWith_ext x (hst.2.2.2.2 (by simp)).seen_le
  | case3 s s1 io heq =>
    have hst := ReceiveState.next_state h heq
    rcases ReceiveState.next_enqueue (dec := L.decodeResponse) h x with ⟨s2, h1⟩ | h1
    · rw [heq] at h1
      simp only [Except.ok.injEq, Prod.mk.injEq, Except.error.injEq, Interrupt.io.injEq] at h1
      obtain ⟨rfl, rfl⟩ := h1
      exact .inl ⟨_, rfl⟩
    · right
      rw [heq] at h1
      rw [receiveResponse_eq]
      generalize (s.enqueueInput x).next L.decodeResponse = out at *
      cases h1
      rfl
  | case4 s s1 len heq ih =>
    have hst := ReceiveState.next_state h heq
    rcases ReceiveState.next_enqueue (dec := L.decodeResponse) h x with ⟨s2, h1⟩ | h1
    · rw [heq] at h1; simp at h1
    · rw [heq] at h1
      rcases ih ((hst.2.2.2.2 (by simp)).startLiteral len) with h2 | h2
      · exact .inl h2
      · right
        rw [receiveResponse_eq]
        generalize (s.enqueueInput x).next L.decodeResponse = out at *
        cases h1
        exact h2
  | case5 s s1 heq =>
    right
    have hst := ReceiveState.next_state h heq
    rcases ReceiveState.next_enqueue (dec := L.decodeResponse) h x with ⟨s1, h1⟩ | h1
    · rw [heq] at h1; simp at h1
    · rw [heq] at h1
      rw [receiveResponse_eq]
      generalize (s.enqueueInput x).next L.decodeResponse = out at *
      cases h1
      exact discardWith_ext x (hst.2.2.2.2 (by simp)).seen_le
  | case6 s s1 heq =>
    right
    have hst := ReceiveState.next_state h heq
    rcases ReceiveState.next_enqueue (dec := L.decodeResponse) h x with ⟨s1, h1⟩ | h1
    · rw [heq] at h1; simp at h1
    · rw [heq] at h1
      rw [receiveResponse_eq]
      generalize (s.enqueueInput x).next L.decodeResponse = out at *
      cases h1
      exact discardWith_ext x (hst.2.2.2.2 (by simp)).seen_le
  | case7 s s1 heq =>
    right
    have hst := ReceiveState.next_state h heq
    rcases ReceiveState.next_enqueue (dec := L.decodeResponse) h x with ⟨s1, h1⟩ | h1
    · rw [heq] at h1; simp at h1
    · rw [heq] at h1
      rw [receiveResponse_eq]
      generalize (s.enqueueInput x).next L.decodeResponse = out at *
      cases h1
      exact discardWith_ext x (hst.2.2.2.2 (by simp)).seen_le
  | case8 s s1 heq =>
    right
    rcases ReceiveState.next_enqueue (dec := L.decodeResponse) h x with ⟨s1, h1⟩ | h1
    · rw [heq] at h1; simp at h1
    · rw [heq] at h1
      rw [receiveResponse_eq]
      generalize (s.enqueueInput x).next L.decodeResponse = out at *
      cases h1 <;> rfl

theorem receiveResponse_resume {L : Lib} {s s1 : ReceiveState} (h : s.Sound)
    (hn : receiveResponse L s = .ok (s1, .error (.io .needMoreInput))) :
    s1.Sound ∧ ∀ x, receiveResponse L (s1.enqueueInput x) = receiveResponse L (s.enqueueInput x) := by
  fun_induction receiveResponse L s with
  | case1 s p heq => cases hn
  | case2 s s2 resp heq =>
    unfold finishWith at hn
    split at hn <;> simp at hn
  | case3 s s2 io heq =>
    simp only [Except.ok.injEq, Prod.mk.injEq, Except.error.injEq, Interrupt.io.injEq] at hn
    obtain ⟨rfl, rfl⟩ := hn
    obtain ⟨h1, -, h2⟩ := ReceiveState.next_resume h heq
    refine ⟨h1, fun x => ?_⟩
    rw [receiveResponse_eq, h2 x, ← receiveResponse_eq]
  | case4 s s2 len heq ih =>
    have hst := ReceiveState.next_state h heq
    obtain ⟨h1, h2⟩ := ih ((hst.2.2.2.2 (by simp)).startLiteral len) hn
    refine ⟨h1, fun x => ?_⟩
    rw [h2 x]
    rcases ReceiveState.next_enqueue (dec := L.decodeResponse) h x with ⟨s2, h3⟩ | h3
    · rw [heq] at h3; simp at h3
    · rw [heq] at h3
      conv => rhs; rw [receiveResponse_eq]
      generalize (s.enqueueInput x).next L.decodeResponse = out at *
      cases h3
      rfl
  | case5 | case6 | case7 =>
    unfold discardWith at hn
    split at hn <;> simp at hn
  | case8 => cases hn

theorem receiveGreeting_ext {L : Lib} {s : ReceiveState} (h : s.Sound) (x : Bytes) :
    (∃ s1, receiveGreeting L s = .ok (s1, .error (.io .needMoreInput))) ∨
    receiveGreeting L (s.enqueueInput x) = extRes x (receiveGreeting L s) := by
  rcases ReceiveState.next_enqueue (dec := L.decodeGreeting) h x with ⟨s1, h1⟩ | h1
  · left
    unfold receiveGreeting
    rw [h1]
    exact ⟨s1, rfl⟩
  · right
    have hst := fun s1 r => ReceiveState.next_state (s1 := s1) (r := r) (dec := L.decodeGreeting) h
    unfold receiveGreeting
    generalize s.next L.decodeGreeting = out at *
    generalize (s.enqueueInput x).next L.decodeGreeting = out' at *
    cases h1 with
    | panic => rfl
    | tooLong => rfl
    | @same s1 r =>
      have hle : s1.seenBytes ≤ s1.readBuffer.length :=
        Nat.le_trans (hst s1 r rfl).2.2.2.1 s1.maxReadableBytes_le
      rcases r with (io | (_ | _ | _)) | m
      · rfl
      · exact discardWith_ext x hle
      · exact discardWith_ext x hle
      · rfl
      · exact finishWith_ext x hle

theorem receiveGreeting_resume {L : Lib} {s s1 : ReceiveState} (h : s.Sound)
    (hn : receiveGreeting L s = .ok (s1, .error (.io .needMoreInput))) :
    s1.Sound ∧ ∀ x, receiveGreeting L (s1.enqueueInput x) = receiveGreeting L (s.enqueueInput x) := by
  have key : s.next L.decodeGreeting = .ok (s1, .error (.io .needMoreInput)) := by
    unfold receiveGreeting at hn
    split at hn
    · cases hn
    · unfold finishWith at hn
      split at hn <;> simp at hn
    · rename_i s2 io heq
      simp only [Except.ok.injEq, Prod.mk.injEq, Except.error.injEq, Interrupt.io.injEq] at hn
      obtain ⟨rfl, rfl⟩ := hn
      exact heq
    · unfold discardWith at hn
      split at hn <;> simp at hn
    · unfold discardWith at hn
      split at hn <;> simp at hn
    · cases hn
  obtain ⟨h1, -, h2⟩ := ReceiveState.next_resume h key
  refine ⟨h1, fun x => ?_⟩
  unfold receiveGreeting
  rw [h2 x]

/-! ## `Client` -/

namespace Client

/-- `enqueueInput` as a total function. -/
def feed (c : Client) (x : Bytes) : Client :=
  match c.receiveState with
  | .greeting s => { c with receiveState := .greeting (s.enqueueInput x) }
  | .response s => { c with receiveState := .response (s.enqueueInput x) }
  | .dummy => c

/-- The receive buffer is consistent. -/
def Sound (c : Client) : Prop :=
  match c.receiveState with
  | .greeting s => s.Sound
  | .response s => s.Sound
  | .dummy => False

theorem enqueueInput_eq {c : Client} (h : c.Sound) (x : Bytes) : c.enqueueInput x = .ok (c.feed x) := by
  unfold Sound at h
  unfold enqueueInput feed
  split <;> simp_all

theorem Sound.feed {c : Client} (h : c.Sound) (x : Bytes) : (c.feed x).Sound := by
  unfold Sound at h
  unfold Client.feed
  split
  · rename_i s hs; rw [hs] at h; exact ReceiveState.Sound.enqueue h x
  · rename_i s hs; rw [hs] at h; exact ReceiveState.Sound.enqueue h x
  · rename_i hs; rw [hs] at h; exact h.elim

theorem _root_.ImapFlow.ReceiveState.enqueueInput_nil (s : ReceiveState) : s.enqueueInput [] = s := by
  simp [ReceiveState.enqueueInput]

theorem _root_.ImapFlow.ReceiveState.enqueueInput_append (s : ReceiveState) (x y : Bytes) :
    s.enqueueInput (x ++ y) = (s.enqueueInput x).enqueueInput y := by
  simp [ReceiveState.enqueueInput, List.append_assoc]

theorem feed_nil (c : Client) : c.feed [] = c := by
  obtain ⟨g, s, r⟩ := c
  unfold feed
  cases r <;> simp [ReceiveState.enqueueInput_nil]

theorem feed_append (c : Client) (x y : Bytes) : c.feed (x ++ y) = (c.feed x).feed y := by
  obtain ⟨g, s, r⟩ := c
  unfold feed
  cases r <;> simp [ReceiveState.enqueueInput_append]

/-- Append input to the state of a result. -/
def ext {α : Type} (x : Bytes) : Except Panic (Client × α) → Except Panic (Client × α)
  | .error p => .error p
  | .ok (c, r) => .ok (c.feed x, r)

theorem progressSend_feed {L : Lib} (c : Client) (x : Bytes) :
    progressSend L (c.feed x) = ext x (progressSend L c) := by
  obtain ⟨g, s, r⟩ := c
  unfold progressSend feed
  cases r with
  | greeting st => rfl
  | dummy => simp only [ext]; split <;> simp_all [feed]
  | response st =>
    simp only
    split <;> rfl

theorem progressReceive_feed {L : Lib} {c : Client} (h : c.Sound) (x : Bytes) :
    (∃ c1, progressReceive L c = .ok (c1, .error (.io .needMoreInput))) ∨
    progressReceive L (c.feed x) = ext x (progressReceive L c) := by
  obtain ⟨g, s, r⟩ := c
  unfold Sound at h
  cases r with
  | dummy => exact h.elim
  | greeting st =>
    rcases receiveGreeting_ext (L := L) h x with ⟨s1, h1⟩ | h1
    · left; simp only [progressReceive, h1]; exact ⟨_, rfl⟩
    · right
      simp only [progressReceive, feed, h1]
      cases h2 : receiveGreeting L st with
      | error p => rfl
      | ok v =>
        obtain ⟨s1, r⟩ := v
        cases r <;> rfl
  | response st =>
    rcases receiveResponse_ext (L := L) h x with ⟨s1, h1⟩ | h1
    · left; simp only [progressReceive, h1]; exact ⟨_, rfl⟩
    · right
      simp only [progressReceive, feed, h1]
      cases h2 : receiveResponse L st with
      | error p => rfl
      | ok v =>
        obtain ⟨s1, r⟩ := v
        cases r <;> rfl

theorem progressReceive_resume {L : Lib} {c c1 : Client} (h : c.Sound)
    (hn : progressReceive L c = .ok (c1, .error (.io .needMoreInput))) :
    c1.Sound ∧ c1.sendState = c.sendState ∧
      (∀ x, progressReceive L (c1.feed x) = progressReceive L (c.feed x)) ∧
      ∀ x, ∃ s s', (c1.feed x).receiveState = .greeting s ∧ (c.feed x).receiveState = .greeting s' ∨
        (c1.feed x).receiveState = .response s ∧ (c.feed x).receiveState = .response s' := by
  obtain ⟨g, s, r⟩ := c
  unfold Sound at h
  cases r with
  | dummy => exact h.elim
  | greeting st =>
    simp only [progressReceive] at hn
    split at hn
    · cases hn
    · rename_i st1 i heq
      simp only [Except.ok.injEq, Prod.mk.injEq, Except.error.injEq] at hn
      obtain ⟨rfl, rfl⟩ := hn
      obtain ⟨h1, h2⟩ := receiveGreeting_resume h heq
      refine ⟨h1, rfl, fun x => ?_, fun x => ⟨_, _, .inl ⟨rfl, rfl⟩⟩⟩
      simp only [progressReceive, feed, h2]
    · split at hn <;> simp at hn
  | response st =>
    simp only [progressReceive] at hn
    split at hn
    · cases hn
    · rename_i st1 i heq
      simp only [Except.ok.injEq, Prod.mk.injEq, Except.error.injEq] at hn
      obtain ⟨rfl, rfl⟩ := hn
      obtain ⟨h1, h2⟩ := receiveResponse_resume h heq
      refine ⟨h1, rfl, fun x => ?_, fun x => ⟨_, _, .inr ⟨rfl, rfl⟩⟩⟩
      simp only [progressReceive, feed, h2]
    · simp at hn

end Client

theorem receiveGreeting_sound {L : Lib} {s s1 : ReceiveState}
    {r : Except (Interrupt ClientError) Greeting} (h : s.Sound)
    (hn : receiveGreeting L s = .ok (s1, r)) : s1.Sound := by
  unfold receiveGreeting at hn
  split at hn
  · cases hn
  · rename_i s2 m heq
    have hst := ReceiveState.next_state h heq
    unfold finishWith at hn
    rw [ReceiveState.finishMessage_eq (Nat.le_trans hst.2.2.2.1 s2.maxReadableBytes_le)] at hn
    simp only [Except.ok.injEq, Prod.mk.injEq] at hn
    rw [← hn.1]; exact ReceiveState.sound_fresh
  · rename_i s2 io heq
    simp only [Except.ok.injEq, Prod.mk.injEq] at hn
    rw [← hn.1]; exact (ReceiveState.next_state h heq).2.2.2.2 (by simp)
  · rename_i s2 m heq
    have hst := ReceiveState.next_state h heq
    unfold discardWith at hn
    rw [ReceiveState.discardMessage_eq (Nat.le_trans hst.2.2.2.1 s2.maxReadableBytes_le)] at hn
    simp only [Except.ok.injEq, Prod.mk.injEq] at hn
    rw [← hn.1]; exact ReceiveState.sound_fresh
  · rename_i s2 heq
    have hst := ReceiveState.next_state h heq
    unfold discardWith at hn
    rw [ReceiveState.discardMessage_eq (Nat.le_trans hst.2.2.2.1 s2.maxReadableBytes_le)] at hn
    simp only [Except.ok.injEq, Prod.mk.injEq] at hn
    rw [← hn.1]; exact ReceiveState.sound_fresh
  · cases hn

theorem receiveResponse_sound {L : Lib} {s s1 : ReceiveState}
    {r : Except (Interrupt ClientError) Response} (h : s.Sound)
    (hn : receiveResponse L s = .ok (s1, r)) : s1.Sound := by
  fun_induction receiveResponse L s with
  | case1 => cases hn
  | case2 s s2 m heq =>
    have hst := ReceiveState.next_state h heq
    unfold finishWith at hn
    rw [ReceiveState.finishMessage_eq (Nat.le_trans hst.2.2.2.1 s2.maxReadableBytes_le)] at hn
    simp only [Except.ok.injEq, Prod.mk.injEq] at hn
    rw [← hn.1]; exact ReceiveState.sound_fresh
  | case3 s s2 io heq =>
    simp only [Except.ok.injEq, Prod.mk.injEq] at hn
    rw [← hn.1]; exact (ReceiveState.next_state h heq).2.2.2.2 (by simp)
  | case4 s s2 len heq ih =>
    exact ih (((ReceiveState.next_state h heq).2.2.2.2 (by simp)).startLiteral len) hn
  | case5 s s2 heq | case6 s s2 heq | case7 s s2 heq =>
    have hst := ReceiveState.next_state h heq
    unfold discardWith at hn
    rw [ReceiveState.discardMessage_eq (Nat.le_trans hst.2.2.2.1 s2.maxReadableBytes_le)] at hn
    simp only [Except.ok.injEq, Prod.mk.injEq] at hn
    rw [← hn.1]; exact ReceiveState.sound_fresh
  | case8 => cases hn

namespace Client

theorem progressReceive_sound {L : Lib} {c c1 : Client}
    {r : Except (Interrupt ClientError) (Option ClientEvent)} (h : c.Sound)
    (hn : progressReceive L c = .ok (c1, r)) : c1.Sound := by
  obtain ⟨g, s, rs⟩ := c
  unfold Sound at h
  cases rs with
  | dummy => exact h.elim
  | greeting st =>
    simp only [progressReceive] at hn
    split at hn
    · cases hn
    · rename_i heq
      simp only [Except.ok.injEq, Prod.mk.injEq] at hn
      rw [← hn.1]; exact receiveGreeting_sound h heq
    · rename_i heq
      simp only [ClientReceiveState.changeState, Except.ok.injEq, Prod.mk.injEq] at hn
      rw [← hn.1]; exact ReceiveState.sound_fresh
  | response st =>
    simp only [progressReceive] at hn
    split at hn
    · cases hn
    · rename_i heq
      simp only [Except.ok.injEq, Prod.mk.injEq] at hn
      rw [← hn.1]; exact receiveResponse_sound h heq
    · rename_i heq
      simp only [Except.ok.injEq, Prod.mk.injEq] at hn
      rw [← hn.1]; exact receiveResponse_sound h heq

theorem progressSend_sound {L : Lib} {c c1 : Client}
    {r : Except (Interrupt ClientError) (Option ClientEvent)} (h : c.Sound)
    (hn : progressSend L c = .ok (c1, r)) : c1.Sound := by
  have := progressSend_unread hn
  unfold Sound at *
  rw [this]; exact h

theorem next_eq (L : Lib) (c : Client) :
    Client.next L c =
      match progressSend L c with
      | .error p => .error p
      | .ok (c1, .error i) => .ok (c1, .error i)
      | .ok (c1, .ok (some event)) => .ok (c1, .ok event)
      | .ok (c1, .ok none) =>
        match progressReceive L c1 with
        | .error p => .error p
        | .ok (c2, .error i) => .ok (c2, .error i)
        | .ok (c2, .ok (some event)) => .ok (c2, .ok event)
        | .ok (c2, .ok none) => Client.next L c2 := by
  rw [Client.next]
  split
  · simp_all
  · simp_all
  · simp_all
  · rename_i heq
    simp only [heq]
    split <;> simp_all

theorem next_sound {L : Lib} {c c1 : Client} {r : Except (Interrupt ClientError) ClientEvent}
    (h : c.Sound) (hn : Client.next L c = .ok (c1, r)) : c1.Sound := by
  fun_induction Client.next L c with
  | case1 => cases hn
  | case2 c c2 i heq =>
    simp only [Except.ok.injEq, Prod.mk.injEq] at hn
    rw [← hn.1]; exact progressSend_sound h heq
  | case3 c c2 i heq =>
    simp only [Except.ok.injEq, Prod.mk.injEq] at hn
    rw [← hn.1]; exact progressSend_sound h heq
  | case4 => cases hn
  | case5 c c2 hs c3 i hr =>
    simp only [Except.ok.injEq, Prod.mk.injEq] at hn
    rw [← hn.1]; exact progressReceive_sound (progressSend_sound h hs) hr
  | case6 c c2 hs c3 i hr =>
    simp only [Except.ok.injEq, Prod.mk.injEq] at hn
    rw [← hn.1]; exact progressReceive_sound (progressSend_sound h hs) hr
  | case7 c c2 hs c3 hr ih => exact ih (progressReceive_sound (progressSend_sound h hs) hr) hn

theorem next_feed {L : Lib} {c : Client} (h : c.Sound) (x : Bytes) :
    (∃ c1, Client.next L c = .ok (c1, .error (.io .needMoreInput))) ∨
    Client.next L (c.feed x) = ext x (Client.next L c) := by
  fun_induction Client.next L c with
  | case1 c p hs => right; rw [next_eq, progressSend_feed, hs]; rfl
  | case2 c c2 i hs => right; rw [next_eq, progressSend_feed, hs]; rfl
  | case3 c c2 i hs => right; rw [next_eq, progressSend_feed, hs]; rfl
  | case4 c c2 hs p hr =>
    right
    rw [next_eq, progressSend_feed, hs]
    rcases progressReceive_feed (L := L) (progressSend_sound h hs) x with ⟨c1, h1⟩ | h1
    · rw [hr] at h1; cases h1
    · simp only [ext, h1, hr]
  | case5 c c2 hs c3 i hr =>
    rcases progressReceive_feed (L := L) (progressSend_sound h hs) x with ⟨c1, h1⟩ | h1
    · rw [hr] at h1
      simp only [Except.ok.injEq, Prod.mk.injEq, Except.error.injEq] at h1
      left; rw [h1.2]; exact ⟨_, rfl⟩
    · right
      rw [next_eq, progressSend_feed, hs]
      simp only [ext, h1, hr]
  | case6 c c2 hs c3 i hr =>
    rcases progressReceive_feed (L := L) (progressSend_sound h hs) x with ⟨c1, h1⟩ | h1
    · rw [hr] at h1; simp at h1
    · right
      rw [next_eq, progressSend_feed, hs]
      simp only [ext, h1, hr]
  | case7 c c2 hs c3 hr ih =>
    rcases ih (progressReceive_sound (progressSend_sound h hs) hr) with h1 | h1
    · exact .inl h1
    · right
      rw [next_eq, progressSend_feed, hs]
      rcases progressReceive_feed (L := L) (progressSend_sound h hs) x with ⟨c1, h2⟩ | h2
      · rw [hr] at h2; simp at h2
      · simp only [ext, h2, hr]
        exact h1

end Client

theorem CommandState.push_idem {s s1 : CommandState} {b : Bytes} {s2 : CommandState}
    (h1 : s.pushToBuffer = (s1, b)) (h2 : s1.finishSending = .uncompleted s2 none) :
    s2.pushToBuffer = (s2, []) ∧ s2.finishSending = .uncompleted s2 none := by
  obtain ⟨hd, cmd, fs, act⟩ := s
  cases act with
  | pushingFragments acc =>
    simp only [pushToBuffer, Prod.mk.injEq] at h1
    obtain ⟨rfl, rfl⟩ := h1
    simp only [finishSending] at h2
    split at h2
    · simp only [FinishSendingResult.uncompleted.injEq] at h2
      obtain ⟨rfl, -⟩ := h2
      simp [pushToBuffer, finishSending]
    · cases h2
    · rename_i h3 h4
      cases h5 : (pushFragments fs).2.fst with
      | none => exact (h4 (by rw [h5])).elim
      | some d => exact (h3 d (by rw [h5])).elim
  | waitingForFragmentsSent l =>
    simp only [pushToBuffer, Prod.mk.injEq] at h1
    obtain ⟨rfl, rfl⟩ := h1
    cases l with
    | none => simp [finishSending] at h2
    | some d =>
      simp only [finishSending, FinishSendingResult.uncompleted.injEq] at h2
      obtain ⟨rfl, -⟩ := h2
      simp [pushToBuffer, finishSending]
  | waitingForLiteralAccepted l =>
    simp only [pushToBuffer, Prod.mk.injEq] at h1
    obtain ⟨rfl, rfl⟩ := h1
    simp only [finishSending, FinishSendingResult.uncompleted.injEq] at h2
    obtain ⟨rfl, -⟩ := h2
    simp [pushToBuffer, finishSending]

theorem AuthenticateState.push_idem {s s1 : AuthenticateState} {b : Bytes} {s2 : AuthenticateState}
    (h1 : s.pushToBuffer = (s1, b)) (h2 : s1.finishSending = .uncompleted s2 none) :
    s2.pushToBuffer = (s2, []) ∧ s2.finishSending = .uncompleted s2 none := by
  obtain ⟨hd, cmd, act⟩ := s
  cases act <;>
  · simp only [pushToBuffer, Prod.mk.injEq] at h1
    obtain ⟨rfl, rfl⟩ := h1
    simp only [finishSending, FinishSendingResult.uncompleted.injEq, reduceCtorEq, and_false,
      and_true] at h2
    try subst h2
    try simp [pushToBuffer, finishSending]

theorem IdleState.push_idem {s s1 : IdleState} {b : Bytes} {s2 : IdleState}
    (h1 : s.pushToBuffer = (s1, b)) (h2 : s1.finishSending = .uncompleted s2 none) :
    s2.pushToBuffer = (s2, []) ∧ s2.finishSending = .uncompleted s2 none := by
  obtain ⟨hd, cmd, act⟩ := s
  cases act <;>
  · simp only [pushToBuffer, Prod.mk.injEq] at h1
    obtain ⟨rfl, rfl⟩ := h1
    simp only [finishSending, FinishSendingResult.uncompleted.injEq, reduceCtorEq, and_false,
      and_true] at h2
    try subst h2
    try simp [pushToBuffer, finishSending]

theorem ClientCurrent.push_idem {s s1 : ClientCurrent} {b : Bytes} {s2 : ClientCurrent}
    (h1 : s.pushToBuffer = (s1, b)) (h2 : s1.finishSending = .uncompleted s2 none) :
    s2.pushToBuffer = (s2, []) ∧ s2.finishSending = .uncompleted s2 none := by
  cases s with
  | command st =>
    simp only [pushToBuffer, Prod.mk.injEq] at h1
    obtain ⟨rfl, -⟩ := h1
    simp only [finishSending] at h2
    cases h3 : st.pushToBuffer.1.finishSending with
    | completed e => rw [h3] at h2; simp [FinishSendingResult.mapState] at h2
    | uncompleted s3 e =>
      rw [h3] at h2
      simp only [FinishSendingResult.mapState, FinishSendingResult.uncompleted.injEq] at h2
      obtain ⟨rfl, rfl⟩ := h2
      obtain ⟨h4, h5⟩ := CommandState.push_idem (b := st.pushToBuffer.2) rfl h3
      simp [pushToBuffer, finishSending, h4, h5, FinishSendingResult.mapState]
  | authenticate st =>
    simp only [pushToBuffer, Prod.mk.injEq] at h1
    obtain ⟨rfl, -⟩ := h1
    simp only [finishSending] at h2
    cases h3 : st.pushToBuffer.1.finishSending with
    | completed e => rw [h3] at h2; simp [FinishSendingResult.mapState] at h2
    | uncompleted s3 e =>
      rw [h3] at h2
      simp only [FinishSendingResult.mapState, FinishSendingResult.uncompleted.injEq] at h2
      obtain ⟨rfl, rfl⟩ := h2
      obtain ⟨h4, h5⟩ := AuthenticateState.push_idem (b := st.pushToBuffer.2) rfl h3
      simp [pushToBuffer, finishSending, h4, h5, FinishSendingResult.mapState]
  | idle st =>
    simp only [pushToBuffer, Prod.mk.injEq] at h1
    obtain ⟨rfl, -⟩ := h1
    simp only [finishSending] at h2
    cases h3 : st.pushToBuffer.1.finishSending with
    | completed e => rw [h3] at h2; simp [FinishSendingResult.mapState] at h2
    | uncompleted s3 e =>
      rw [h3] at h2
      simp only [FinishSendingResult.mapState, FinishSendingResult.uncompleted.injEq] at h2
      obtain ⟨rfl, rfl⟩ := h2
      obtain ⟨h4, h5⟩ := IdleState.push_idem (b := st.pushToBuffer.2) rfl h3
      simp [pushToBuffer, finishSending, h4, h5, FinishSendingResult.mapState]

theorem ClientSendState.progressCurrent_idem {L : Lib} {s s1 : ClientSendState} {cur : ClientCurrent}
    (h : progressCurrent s cur = (s1, .ok none)) : s1.next L = .ok (s1, .ok none) := by
  unfold progressCurrent at h
  simp only at h
  split at h
  · split at h
    · rename_i s2 e heq
      simp only [Prod.mk.injEq, Except.ok.injEq] at h
      obtain ⟨rfl, rfl⟩ := h
      obtain ⟨h4, h5⟩ := ClientCurrent.push_idem (b := cur.pushToBuffer.2) rfl heq
      simp [ClientSendState.next, progressCurrent, h4, h5]
    · simp at h
  · simp at h

theorem ClientSendState.next_idem {L : Lib} {s s1 : ClientSendState}
    (h : s.next L = .ok (s1, .ok none)) : s1.next L = .ok (s1, .ok none) := by
  have h0 := h
  unfold ClientSendState.next at h
  split at h
  · simp only [Except.ok.injEq] at h
    exact progressCurrent_idem h
  · split at h
    · simp only [Except.ok.injEq, Prod.mk.injEq, and_true] at h
      subst h; exact h0
    · split at h
      · cases h
      · simp only [Except.ok.injEq] at h
        exact progressCurrent_idem h

namespace Client

theorem progressSend_idem {L : Lib} {c c1 : Client} (h : progressSend L c = .ok (c1, .ok none)) :
    progressSend L c1 = .ok (c1, .ok none) := by
  have h0 := h
  unfold progressSend at h
  split at h
  · simp only [Except.ok.injEq, Prod.mk.injEq, and_true] at h
    subst h; exact h0
  · rename_i hr
    split at h
    · cases h
    · rename_i ss hss
      simp only [Except.ok.injEq, Prod.mk.injEq, and_true] at h
      subst h
      unfold progressSend
      simp only [ClientSendState.next_idem hss]
    · simp at h
    · simp at h

theorem next_resume {L : Lib} {c c1 : Client} (h : c.Sound)
    (hn : Client.next L c = .ok (c1, .error (.io .needMoreInput))) :
    ∀ x, Client.next L (c1.feed x) = Client.next L (c.feed x) := by
  fun_induction Client.next L c with
  | case1 => cases hn
  | case2 c c2 i heq =>
    simp only [Except.ok.injEq, Prod.mk.injEq, Except.error.injEq] at hn
    obtain ⟨rfl, rfl⟩ := hn
    exfalso
    unfold progressSend at heq
    split at heq
    · simp at heq
    · split at heq
      · cases heq
      · simp at heq
      · simp at heq
      · rename_i ss io hss
        simp only [Except.ok.injEq, Prod.mk.injEq, Except.error.injEq, Interrupt.io.injEq] at heq
        obtain ⟨-, rfl⟩ := heq
        have key : ∀ (a : ClientSendState) b ss,
            ClientSendState.progressCurrent a b ≠ (ss, .error (.io .needMoreInput)) := by
          intro a b ss hh
          unfold ClientSendState.progressCurrent at hh
          simp only at hh
          split at hh
          · split at hh <;> simp at hh
          · simp at hh
        unfold ClientSendState.next at hss
        split at hss
        · simp only [Except.ok.injEq] at hss
          exact key _ _ _ hss
        · split at hss
          · simp at hss
          · split at hss
            · cases hss
            · simp only [Except.ok.injEq] at hss
              exact key _ _ _ hss
  | case3 c c2 i heq => simp at hn
  | case4 => cases hn
  | case5 c c2 hs c3 i hr =>
    simp only [Except.ok.injEq, Prod.mk.injEq, Except.error.injEq] at hn
    obtain ⟨rfl, rfl⟩ := hn
    intro x
    obtain ⟨h1, h2, h3, h4⟩ := progressReceive_resume (progressSend_sound h hs) hr
    have hid := progressSend_idem hs
    have hg : progressSend L c3 = .ok (c3, .ok none) := by
      have e : c2.feed [] = c2 := feed_nil _
      have e3 : c3.feed [] = c3 := feed_nil _
      obtain ⟨s, s', h5⟩ := h4 []
      rw [e, e3] at h5
      unfold progressSend at hid ⊢
      obtain ⟨g3, ss3, r3⟩ := c3
      obtain ⟨g2, ss2, r2⟩ := c2
      simp only at h2 h5
      rcases h5 with ⟨rfl, rfl⟩ | ⟨rfl, rfl⟩
      · rfl
      · subst h2
        simp only at hid ⊢
        split at hid
        · cases hid
        · simp only [Except.ok.injEq, Prod.mk.injEq, Client.mk.injEq, and_true, true_and] at hid
          rw [hid]
        · simp at hid
        · simp at hid
    conv => lhs; rw [next_eq, progressSend_feed, hg]
    conv => rhs; rw [next_eq, progressSend_feed, hs]
    simp only [ext, h3]
  | case6 => simp at hn
  | case7 c c2 hs c3 hr ih =>
    intro x
    rw [ih (progressReceive_sound (progressSend_sound h hs) hr) hn x]
    conv => rhs; rw [next_eq, progressSend_feed, hs]
    rcases progressReceive_feed (L := L) (progressSend_sound h hs) x with ⟨c1, h2⟩ | h2
    · rw [hr] at h2; simp at h2
    · simp only [ext, h2, hr]

/-- The client as a machine fed with input. -/
def feeder (L : Lib) : Feeder Client (Except (Interrupt ClientError) ClientEvent) where
  feed := feed
  next := Client.next L
  silent r := r = .error (.io .needMoreInput)

theorem feeder_chunkable (L : Lib) : (feeder L).Chunkable Sound where
  feed_nil := feed_nil
  feed_append := feed_append
  feed_inv _ x h := h.feed x
  progress c c1 a x h hn ha := by
    refine ⟨next_sound h hn, ?_⟩
    rcases next_feed (L := L) h x with ⟨c2, h1⟩ | h1
    · rw [show Client.next L c = _ from hn] at h1
      simp only [Except.ok.injEq, Prod.mk.injEq] at h1
      simp [feeder, h1.2] at ha
    · rw [show Client.next L c = _ from hn] at h1
      exact h1
  suspend c c1 a h hn ha := by
    have ha' : a = .error (.io .needMoreInput) := by simpa [feeder] using ha
    subst ha'
    exact ⟨next_sound h hn, next_resume h hn⟩

theorem new_sound (g : HandleGenerator) (o : ClientOptions) : (Client.new g o).Sound :=
  ReceiveState.sound_fresh

theorem call_sound {L : Lib} {c c1 : Client} {op : ClientOp} {obs : ClientObs} (h : c.Sound)
    (hc : c.call L op = .ok (c1, obs)) : c1.Sound := by
  cases op with
  | enqueueCommand cmd =>
    simp only [call, Except.ok.injEq, Prod.mk.injEq] at hc
    rw [← hc.1]; exact h
  | enqueueInput b =>
    simp only [call, enqueueInput_eq h, Except.map, Except.ok.injEq, Prod.mk.injEq] at hc
    rw [← hc.1]; exact h.feed b
  | next =>
    simp only [call] at hc
    cases h1 : Client.next L c with
    | error p => rw [h1] at hc; cases hc
    | ok v =>
      obtain ⟨c2, r⟩ := v
      rw [h1] at hc
      simp only [Except.map, Except.ok.injEq, Prod.mk.injEq] at hc
      rw [← hc.1]; exact next_sound h h1
  | setAuthenticateData d =>
    simp only [call, setAuthenticateData] at hc
    split at hc
    · cases hc
    · simp only [Except.map, Except.ok.injEq, Prod.mk.injEq] at hc
      rw [← hc.1]; exact h
  | setIdleDone =>
    simp only [call, setIdleDone] at hc
    split at hc
    · cases hc
    · simp only [Except.map, Except.ok.injEq, Prod.mk.injEq] at hc
      rw [← hc.1]; exact h

theorem run_sound {L : Lib} {ops : List ClientOp} {c c1 : Client} {h : List ClientObs} (hs : c.Sound)
    (hr : c.run L ops = .ok (c1, h)) : c1.Sound := by
  induction ops generalizing c h with
  | nil =>
    simp only [run, Except.ok.injEq, Prod.mk.injEq] at hr
    rw [← hr.1]; exact hs
  | cons op ops ih =>
    simp only [run] at hr
    split at hr
    · cases hr
    · rename_i c2 obs hc
      split at hr
      · cases hr
      · rename_i c3 h3 hr3
        simp only [Except.ok.injEq, Prod.mk.injEq] at hr
        obtain ⟨rfl, -⟩ := hr
        exact ih (call_sound hs hc) hr3

theorem Reachable.sound {L : Lib} {c : Client} (h : c.Reachable L) : c.Sound := by
  obtain ⟨g, o, ops, hist, hr⟩ := h
  exact run_sound (new_sound g o) hr

theorem run_feeder {L : Lib} {ops : List ClientOp} {c c1 : Client} {h : List ClientObs} (hs : c.Sound)
    (hf : FeedOnly ops) (hr : c.run L ops = .ok (c1, h)) :
    (feeder L).Run c (clientInput h) (clientReports h) c1 := by
  induction ops generalizing c h with
  | nil =>
    simp only [run, Except.ok.injEq, Prod.mk.injEq] at hr
    obtain ⟨rfl, rfl⟩ := hr
    exact .done
  | cons op ops ih =>
    simp only [run] at hr
    split at hr
    · cases hr
    · rename_i c2 obs hc
      split at hr
      · cases hr
      · rename_i c3 h3 hr3
        simp only [Except.ok.injEq, Prod.mk.injEq] at hr
        obtain ⟨rfl, rfl⟩ := hr
        have ih' := ih (call_sound hs hc) (fun o ho => hf o (List.mem_cons_of_mem _ ho)) hr3
        rcases hf op (List.mem_cons_self ..) with rfl | ⟨b, rfl⟩
        · simp only [call] at hc
          cases h1 : Client.next L c with
          | error p => rw [h1] at hc; cases hc
          | ok v =>
            obtain ⟨c4, r⟩ := v
            rw [h1] at hc
            simp only [Except.map, Except.ok.injEq, Prod.mk.injEq] at hc
            obtain ⟨rfl, rfl⟩ := hc
            simp only [clientInput, clientReports]
            split
            · rename_i hr'
              exact .silent h1 (by simp [feeder, hr']) ih'
            · rename_i hr'
              exact .report h1 (by simp [feeder, hr']) ih'
        · simp only [call, enqueueInput_eq hs, Except.map, Except.ok.injEq, Prod.mk.injEq] at hc
          obtain ⟨rfl, rfl⟩ := hc
          exact .feed ih'

end Client

end ImapFlow
