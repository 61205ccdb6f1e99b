import Verif.Proofs.ClientReads
import Verif.Spec.ClientSamples
import Verif.Proofs.ServerReads
import Verif.Spec.ServerSamples

/-!
# C09: `next` always returns

The loops of the code are written here with an explicit bound on the number of iterations; `none` means
that the bound was not sufficient.  The theorems state that a bound of one more than the number of
buffered bytes is always sufficient, and that the result is that of the model's `next`.
-/

namespace ImapFlow

/-- `Client::next`, `/repo/src/client.rs:272-282`, at most `n` iterations. -/
def Client.nextBounded (L : Lib) : Nat → Client → Option (Res Client ClientError ClientEvent)
  | 0, _ => none
  | n + 1, c =>
    match progressSend L c with
    | .error p => some (.error p)
    | .ok (c1, .error i) => some (.ok (c1, .error i))
    | .ok (c1, .ok (some event)) => some (.ok (c1, .ok event))
    | .ok (c1, .ok none) =>
      match progressReceive L c1 with
      | .error p => some (.error p)
      | .ok (c2, .error i) => some (.ok (c2, .error i))
      | .ok (c2, .ok (some event)) => some (.ok (c2, .ok event))
      | .ok (c2, .ok none) => nextBounded L n c2

/-- The loop in `Client::progress_receive` (`continue` after a literal was announced),
`/repo/src/client.rs:107-169`, at most `n` iterations. -/
def receiveResponseBounded (L : Lib) : Nat → ReceiveState → Option (Res ReceiveState ClientError Response)
  | 0, _ => none
  | n + 1, s =>
    match s.next L.decodeResponse with
    | .error p => some (.error p)
    | .ok (s1, .ok response) => some (finishWith s1 response)
    | .ok (s1, .error (.io io)) => some (.ok (s1, .error (.io io)))
    | .ok (s1, .error (.error (.decodingFailure (.literalFound length)))) =>
      receiveResponseBounded L n (s1.startLiteral length)
    | .ok (s1, .error (.error (.decodingFailure .failed))) => some (discardWith s1 .malformedMessage)
    | .ok (s1, .error (.error (.decodingFailure .incomplete))) => some (discardWith s1 .malformedMessage)
    | .ok (s1, .error (.error .expectedCrlfGotLf)) => some (discardWith s1 .expectedCrlfGotLf)
    | .ok (_, .error (.error .messageTooLong)) => some (.error .unreachableCode)

theorem Client.unread_le_buffer (c : Client) : c.unread ≤ c.buffer.length := by
  unfold unread buffer
  cases c.receiveState <;> simp [ReceiveState.unread]

/-- `Client::next` returns after at most one iteration more than there are buffered bytes, in every
state. -/
theorem C09_client_next_returns (L : Lib) (c : Client) (n : Nat) (hn : c.buffer.length < n) :
    c.nextBounded L n = some (c.next L) := by
  replace hn : c.unread < n := Nat.lt_of_le_of_lt c.unread_le_buffer hn
  induction n generalizing c with
  | zero => omega
  | succ n ih =>
    rw [Client.nextBounded, Client.next_eq]
    cases hs : Client.progressSend L c with
    | error p => rfl
    | ok x =>
      obtain ⟨c1, r1⟩ := x
      rcases r1 with i | _ | e
      · rfl
      · simp only
        cases hr : Client.progressReceive L c1 with
        | error p => rfl
        | ok y =>
          obtain ⟨c2, r2⟩ := y
          rcases r2 with i | _ | e
          · rfl
          · simp only
            have e1 := Client.progressSend_unread hs
            have e2 := Client.progressReceive_unread hr
            have e3 : c1.unread = c.unread := by simp [Client.unread, e1]
            exact ih c2 (by omega)
          · rfl
      · rfl

/-- The same for the loop over the literals of one response. -/
theorem C09_client_receive_returns (L : Lib) (s : ReceiveState) (n : Nat) (hn : s.readBuffer.length < n) :
    receiveResponseBounded L n s = some (receiveResponse L s) := by
  replace hn : s.unread < n := by
    have : s.unread ≤ s.readBuffer.length := by simp [ReceiveState.unread]
    omega
  induction n generalizing s with
  | zero => omega
  | succ n ih =>
    rw [receiveResponseBounded, receiveResponse_eq]
    cases hs : s.next L.decodeResponse with
    | error p => rfl
    | ok x =>
      obtain ⟨s1, r⟩ := x
      rcases r with (io | e) | m
      · rfl
      · rcases e with e | _ | _
        · cases e with
          | incomplete => rfl
          | failed => rfl
          | literalFound k =>
            simp only
            have h1 := ReceiveState.next_unread hs (by simp) (by simp)
            have h2 : (s1.startLiteral k).unread = s1.unread := rfl
            exact ih _ (by omega)
        · rfl
        · rfl
      · rfl

/-- More than one iteration is needed: a continuation request that releases a literal is followed by
another iteration. -/
example :
    let r := (Client.new ClientSample.g .default).run Toy.lib (ClientSample.literalOps.take 9)
    (r.toOption.bind fun r => r.1.nextBounded Toy.lib 1) = none ∧
    ((r.toOption.bind fun r => r.1.nextBounded Toy.lib 2).isSome = true) := by
  decide +kernel

/-- `Server::next`, `/repo/src/server.rs:489-499`, at most `n` iterations. -/
def Server.nextBounded (L : Lib) : Nat → Server → Option (Res Server ServerError ServerEvent)
  | 0, _ => none
  | n + 1, s =>
    match progressSend L s with
    | (s1, .error i) => some (.ok (s1, .error i))
    | (s1, .ok (some event)) => some (.ok (s1, .ok event))
    | (s1, .ok none) =>
      match progressReceive L s1 with
      | .error p => some (.error p)
      | .ok (s2, .error i) => some (.ok (s2, .error i))
      | .ok (s2, .ok (some event)) => some (.ok (s2, .ok event))
      | .ok (s2, .ok none) => nextBounded L n s2

theorem Server.unread_le_buffer (s : Server) : s.unread ≤ s.buffer.length := by
  unfold unread buffer rx
  cases s.receiveState <;> simp [ReceiveState.unread]

/-- `Server::next` returns after at most one iteration more than there are buffered bytes, in every
state. -/
theorem C09_server_next_returns (L : Lib) (s : Server) (n : Nat) (hn : s.buffer.length < n) :
    s.nextBounded L n = some (s.next L) := by
  replace hn : s.unread < n := Nat.lt_of_le_of_lt s.unread_le_buffer hn
  induction n generalizing s with
  | zero => omega
  | succ n ih =>
    rw [Server.nextBounded, Server.next_eq]
    cases hs : Server.progressSend L s with
    | mk s1 r1 =>
      rcases r1 with i | _ | e
      · rfl
      · simp only
        cases hr : Server.progressReceive L s1 with
        | error p => rfl
        | ok y =>
          obtain ⟨s2, r2⟩ := y
          rcases r2 with i | _ | e
          · rfl
          · simp only
            have e1 := Server.progressSend_receiveState hs
            have e2 := Server.progressReceive_unread hr
            have e3 : s1.unread = s.unread := by simp [Server.unread, e1]
            exact ih s2 (by omega)
          · rfl
      · rfl

/-- More than one iteration is needed: an accepted literal is followed by another iteration. -/
example :
    let r := (Server.new ClientSample.g ServerSample.options ServerSample.greeting).run Toy.lib
      (ServerSample.commandOps.take 3)
    (r.toOption.bind fun r => r.1.nextBounded Toy.lib 1) = none ∧
    ((r.toOption.bind fun r => r.1.nextBounded Toy.lib 2).isSome = true) := by
  decide +kernel

end ImapFlow
