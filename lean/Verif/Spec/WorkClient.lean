import Verif.Spec.ClientTrace
import Verif.Spec.Work

/-!
# What is given to the decoder of the client

The functions below count the bytes; they have the structure of the functions that call the decoder
(`/repo/src/receive.rs:121-133`).
-/

namespace ImapFlow

/-- A decoder that fails and reports what it was given. -/
def probe : Decoder Bytes Unit := fun w => .error w

/-- The number of bytes given to the decoder by one call of `ReceiveState::next`, `/repo/src/receive.rs:63-133`.  Whether
and with what the decoder is called does not depend on the decoder, so a decoder that reports it is used. -/
def ReceiveState.decoded (s : ReceiveState) : Nat :=
  match s.next probe with
  | .ok (_, .error (.error (.decodingFailure w))) => w.length
  | _ => 0

/-- The bytes given to the decoder while a response is received; goes on after a literal like `receiveResponse`,
`/repo/src/client.rs:107-108,137-169`. -/
def decodedResponse (L : Lib) (s : ReceiveState) : Nat :=
  s.decoded +
    match _h : s.next L.decodeResponse with
    | .ok (s1, .error (.error (.decodingFailure (.literalFound length)))) => decodedResponse L (s1.startLiteral length)
    | _ => 0
termination_by s.unread
decreasing_by
  have h1 : s1.unread < s.unread := ReceiveState.next_unread _h (by simp) (by simp)
  exact h1

/-- The bytes given to the decoder by one call of `Client::progress_receive`, `/repo/src/client.rs:106-238`. -/
def Client.decodedReceive (L : Lib) (c : Client) : Nat :=
  match c.receiveState with
  | .greeting st => st.decoded
  | .response st => decodedResponse L st
  | .dummy => 0

/-- The bytes given to the decoder by one call of `Client::next`, `/repo/src/client.rs:272-284`. -/
def Client.decodedNext (L : Lib) (c : Client) : Nat :=
  match _hs : progressSend L c with
  | .ok (c1, .ok none) =>
    c1.decodedReceive L +
      match _hr : progressReceive L c1 with
      | .ok (c2, .ok none) => decodedNext L c2
      | _ => 0
  | _ => 0
termination_by c.unread
decreasing_by
  have h1 := Client.progressSend_unread _hs
  have h2 := Client.progressReceive_unread _hr
  have h3 : c1.unread = c.unread := by simp [Client.unread, h1]
  omega

/-- The bytes given to the decoder by one call. -/
def Client.decodedCall (L : Lib) (c : Client) : ClientOp → Nat
  | .next => c.decodedNext L
  | _ => 0

/-- The bytes given to the decoder during a list of calls. -/
def Client.decodedCalls (L : Lib) (c : Client) : List ClientOp → Nat
  | [] => 0
  | op :: ops =>
    c.decodedCall L op +
    match c.callTrace L op with
    | .ok (c, _) => decodedCalls L c ops
    | .error _ => 0

/-- `Ghi` CRLF: a greeting of the toy codec. -/
def hiGreeting : Bytes := [71, 104, 105, 13, 10]

/-- The client receives a greeting and then, at once, the beginning of a response with `n` announcements. -/
def emptyLiteralClientOps (n : Nat) : List ClientOp :=
  [.enqueueInput hiGreeting, .next, .enqueueInput (emptyLiterals n), .next]

end ImapFlow
