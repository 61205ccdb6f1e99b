import Verif.Proofs.Receive
import Verif.Proofs.Framing
import Verif.Proofs.ClientChunk
import Verif.Spec.ClientTrace

/-!
# What receiving one whole message can do
-/

namespace ImapFlow

variable {ε ε' μ : Type}

namespace ReceiveState

/-- All possible outcomes of receiving one message including its literals. -/
inductive RxOutcome (F : Framing ε μ) (s : ReceiveState) (bad mal long : Bytes → ε') :
    Res ReceiveState ε' μ → Prop
  | message {w rest : Bytes} {m : μ} : s.readBuffer = w ++ rest → IsMessage F w m →
      (∀ max, s.maxMessageSize = some max → w.length ≤ max) →
      RxOutcome F s bad mal long (.ok (withReadBuffer s.crlfRelaxed s.maxMessageSize rest, .ok m))
  | malformed {w rest : Bytes} {e : ε} : s.readBuffer = w ++ rest → IsUndecodable F w e →
      (∀ max, s.maxMessageSize = some max → w.length ≤ max) →
      RxOutcome F s bad mal long
        (.ok (withReadBuffer s.crlfRelaxed s.maxMessageSize rest, .error (.error (mal w))))
  | badLine {w rest : Bytes} : s.readBuffer = w ++ rest → IsBadLine F w →
      (∀ max, s.maxMessageSize = some max → w.length ≤ max) →
      RxOutcome F s bad mal long
        (.ok (withReadBuffer s.crlfRelaxed s.maxMessageSize rest, .error (.error (bad w))))
  | tooLong {w rest : Bytes} : s.readBuffer = w ++ rest → IsUnfinished F w →
      s.maxMessageSize = some w.length →
      RxOutcome F s bad mal long
        (.ok (withReadBuffer s.crlfRelaxed s.maxMessageSize rest, .error (.error (long w))))
  | needMore {s1 : ReceiveState} : s1.crlfRelaxed = s.crlfRelaxed →
      s1.maxMessageSize = s.maxMessageSize → s1.readBuffer = s.readBuffer → Reading F s1 →
      IsUnfinished F s.readBuffer → (∀ max, s.maxMessageSize = some max → s.readBuffer.length < max) →
      RxOutcome F s bad mal long (.ok (s1, .error (.io .needMoreInput)))
  | panic {p l rem : Bytes} {m : μ} : Announced F p → IsLine l → F.dec (p ++ l) = .ok (rem, m) →
      rem ≠ [] → RxOutcome F s bad mal long (.error .assertFailed)

theorem maxReadable_le_max {s : ReceiveState} {n max : Nat} (h : n ≤ s.maxReadableBytes)
    (hm : s.maxMessageSize = some max) : n ≤ max := by
  unfold maxReadableBytes at h
  rw [hm] at h
  simp only at h
  omega

theorem max_of_needMore {s : ReceiveState} {max : Nat} (h : some s.maxReadableBytes ≠ s.maxMessageSize)
    (hm : s.maxMessageSize = some max) : s.readBuffer.length < max := by
  have := maxReadable_eq_length h
  unfold maxReadableBytes at this h
  rw [hm] at this h
  simp only at this h
  simp only [ne_eq, Option.some.injEq] at h
  omega

theorem finishWith_at {s : ReceiveState} {n : Nat} {m : μ} (h : n ≤ s.readBuffer.length) :
    finishWith (ε := ε') (s.atLine n) m =
      .ok (withReadBuffer s.crlfRelaxed s.maxMessageSize (s.readBuffer.drop n), .ok m) := by
  unfold finishWith
  rw [finishMessage_eq (by exact h)]
  rfl

theorem discardWith_eq {α : Type} {s : ReceiveState} {mk : Bytes → ε'} (h : s.seenBytes ≤ s.readBuffer.length) :
    discardWith (α := α) s mk =
      .ok (withReadBuffer s.crlfRelaxed s.maxMessageSize (s.readBuffer.drop s.seenBytes),
        .error (.error (mk (s.readBuffer.take s.seenBytes)))) := by
  unfold discardWith
  rw [discardMessage_eq h]

theorem LineAt.le {F : Framing ε μ} {s : ReceiveState} {n : Nat} {p l : Bytes} (h : LineAt F s n p l) :
    n ≤ s.readBuffer.length := Nat.le_trans h.le_max s.maxReadableBytes_le

theorem LineAt.buffer {F : Framing ε μ} {s : ReceiveState} {n : Nat} {p l : Bytes} (h : LineAt F s n p l) :
    s.readBuffer = (p ++ l) ++ s.readBuffer.drop n := by
  rw [← h.take_eq, List.take_append_drop]

theorem LineAt.length {F : Framing ε μ} {s : ReceiveState} {n : Nat} {p l : Bytes} (h : LineAt F s n p l) :
    (p ++ l).length = n := by
  rw [← h.take_eq, List.length_take, Nat.min_eq_left h.le]

theorem LineAt.max {F : Framing ε μ} {s : ReceiveState} {n : Nat} {p l : Bytes} (h : LineAt F s n p l) :
    ∀ max, s.maxMessageSize = some max → (p ++ l).length ≤ max := by
  intro max hm
  rw [h.length]
  exact maxReadable_le_max h.le_max hm

/-- Completing a message. -/
theorem RxOutcome.of_message {F : Framing ε μ} {s : ReceiveState} {bad mal long : Bytes → ε'} {n : Nat}
    {p l : Bytes} {m : μ} (h : LineAt F s n p l) (hc : CrlfOk F.relaxed l)
    (hd : F.dec (p ++ l) = .ok ([], m)) :
    RxOutcome F s bad mal long (finishWith (s.atLine n) m) := by
  rw [finishWith_at h.le]
  exact .message h.buffer ⟨p, l, rfl, h.announced, h.line, hc, hd⟩ h.max

theorem RxOutcome.of_failure {F : Framing ε μ} {s : ReceiveState} {bad mal long : Bytes → ε'} {n : Nat}
    {p l : Bytes} {e : ε} (h : LineAt F s n p l) (hc : CrlfOk F.relaxed l)
    (hd : F.dec (p ++ l) = .error e) (he : F.lit e = none) :
    RxOutcome F s bad mal long (discardWith (s.atLine n) mal) := by
  rw [discardWith_eq (s := s.atLine n) h.le]
  show RxOutcome F s bad mal long (.ok (_, .error (.error (mal (s.readBuffer.take n)))))
  rw [h.take_eq]
  exact .malformed h.buffer ⟨p, l, rfl, h.announced, h.line, hc, hd, he⟩ h.max

theorem RxOutcome.of_badLine {F : Framing ε μ} {s : ReceiveState} {bad mal long : Bytes → ε'} {n : Nat}
    {p l : Bytes} (h : LineAt F s n p l) (hc : ¬ CrlfOk F.relaxed l) :
    RxOutcome F s bad mal long (discardWith (s.atLine n) bad) := by
  rw [discardWith_eq (s := s.atLine n) h.le]
  show RxOutcome F s bad mal long (.ok (_, .error (.error (bad (s.readBuffer.take n)))))
  rw [h.take_eq]
  exact .badLine h.buffer ⟨p, l, rfl, h.announced, h.line, hc⟩ h.max

theorem RxOutcome.of_tooLong {F : Framing ε μ} {s s1 : ReceiveState} {bad mal long : Bytes → ε'}
    (hm : some s.maxReadableBytes = s.maxMessageSize) (h1 : s1.crlfRelaxed = s.crlfRelaxed)
    (h2 : s1.maxMessageSize = s.maxMessageSize) (h3 : s1.readBuffer = s.readBuffer)
    (h4 : s1.seenBytes = s.maxReadableBytes) (hu : IsUnfinished F (s.readBuffer.take s.maxReadableBytes)) :
    RxOutcome F s bad mal long (discardWith s1 long) := by
  have hle := s.maxReadableBytes_le
  rw [discardWith_eq (by rw [h3, h4]; exact hle), h1, h2, h3, h4]
  refine .tooLong (List.take_append_drop ..).symm hu ?_
  rw [← hm, List.length_take, Nat.min_eq_left hle]

/-- After an accepted literal announcement the state is reading the literal. -/
theorem LineAt.reading {F : Framing ε μ} {s : ReceiveState} {n k : Nat} {p l : Bytes} {e : ε}
    (hr : s.crlfRelaxed = F.relaxed) (h : LineAt F s n p l) (hc : CrlfOk F.relaxed l)
    (hd : F.dec (p ++ l) = .error e) (he : F.lit e = some k) :
    Reading F ((s.atLine n).startLiteral k) :=
  ⟨hr, h.le_max, p, l, e, h.take_eq, h.announced, h.line, hc, hd, he⟩

/-- The outcome is described by the buffer and the limits only. -/
theorem RxOutcome.congr {F : Framing ε μ} {s s' : ReceiveState} {bad mal long : Bytes → ε'}
    {r : Res ReceiveState ε' μ} (h1 : s'.crlfRelaxed = s.crlfRelaxed)
    (h2 : s'.maxMessageSize = s.maxMessageSize) (h3 : s'.readBuffer = s.readBuffer)
    (h : RxOutcome F s bad mal long r) : RxOutcome F s' bad mal long r := by
  cases h with
  | message a b c => rw [← h1, ← h2]; exact .message (by rw [h3, a]) b (by rw [h2]; exact c)
  | malformed a b c => rw [← h1, ← h2]; exact .malformed (by rw [h3, a]) b (by rw [h2]; exact c)
  | badLine a b c => rw [← h1, ← h2]; exact .badLine (by rw [h3, a]) b (by rw [h2]; exact c)
  | tooLong a b c => rw [← h1, ← h2]; exact .tooLong (by rw [h3, a]) b (by rw [h2]; exact c)
  | needMore a b c d e f =>
    exact .needMore (by rw [h1, a]) (by rw [h2, b]) (by rw [h3, c]) d (by rw [h3]; exact e)
      (by rw [h2, h3]; exact f)
  | panic a b c d => exact .panic a b c d

end ReceiveState

open ReceiveState

theorem receiveGreeting_outcome {L : Lib} {s : ReceiveState} {relaxed : Bool}
    (h : Reading (greetingFraming L relaxed) s) (hmax : s.maxMessageSize = none)
    (long : Bytes → ClientError) :
    RxOutcome (greetingFraming L relaxed) s .expectedCrlfGotLf .malformedMessage long
      (receiveGreeting L s) := by
  have ho := next_outcome h
  unfold receiveGreeting
  have e1 : (greetingFraming L relaxed).dec = L.decodeGreeting := rfl
  rw [e1] at ho
  generalize s.next L.decodeGreeting = r at ho
  cases ho with
  | message a b c => exact .of_message a b c
  | failure a b c => exact .of_failure a b c rfl
  | badLine a b => exact .of_badLine a b
  | tooLong a => rw [hmax] at a; cases a
  | needMore a b c d e _ _ _ =>
    exact .needMore (by rw [d.1, h.1]) b c d e (fun max hm => max_of_needMore a hm)
  | assertFailed a b c d => exact .panic a.announced a.line c d

theorem receiveResponse_outcome {L : Lib} {s : ReceiveState} {relaxed : Bool}
    (h : Reading (responseFraming L relaxed) s) (hmax : s.maxMessageSize = none)
    (long : Bytes → ClientError) :
    RxOutcome (responseFraming L relaxed) s .expectedCrlfGotLf .malformedMessage long
      (receiveResponse L s) := by
  generalize hn : s.unread = n
  induction n using Nat.strongRecOn generalizing s with
  | _ n ih =>
    have ho := next_outcome h
    rw [receiveResponse_eq]
    have e1 : (responseFraming L relaxed).dec = L.decodeResponse := rfl
    rw [e1] at ho
    generalize hr : s.next L.decodeResponse = r at ho
    cases ho with
    | message a b c => exact .of_message a b c
    | @failure n' p l e a b c =>
      cases e with
      | incomplete => exact .of_failure a b c rfl
      | failed => exact .of_failure a b c rfl
      | literalFound k =>
        have h1 := ReceiveState.next_unread hr (by simp) (by simp)
        have h2 : ((s.atLine n').startLiteral k).unread = (s.atLine n').unread := rfl
        have h3 := ih _ (by omega) (a.reading h.1 b c rfl) hmax h2
        show RxOutcome _ s _ _ _ (receiveResponse L ((s.atLine n').startLiteral k))
        exact RxOutcome.congr (s := (s.atLine n').startLiteral k) rfl rfl rfl h3
    | badLine a b => exact .of_badLine a b
    | tooLong a => rw [hmax] at a; cases a
    | needMore a b c d e _ _ _ =>
      exact .needMore (by rw [d.1, h.1]) b c d e (fun max hm => max_of_needMore a hm)
    | assertFailed a b c d => exact .panic a.announced a.line c d

end ImapFlow
