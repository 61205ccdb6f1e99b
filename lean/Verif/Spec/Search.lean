import Verif.Spec.ServerTrace
import Verif.Spec.ClientTrace

/-!
# How many bytes are searched for the end of a line

`find_crlf` (`/repo/src/receive.rs:227-234`) looks at the bytes from `start` on until it finds LF or there are no more.
The functions below count them; they have the structure of the functions that call `find_crlf`.
-/

namespace ImapFlow

/-- `buf[start..].iter().position(|item| *item == b'\n')`, `/repo/src/receive.rs:228`, looks at this many bytes. -/
def lookedAt (buf : Bytes) (start : Nat) : Nat :=
  match (buf.drop start).findIdx? (· == LF) with
  | some i => i + 1
  | none => buf.length - start

/-- The bytes looked at by one call of `ReceiveState::next`, `/repo/src/receive.rs:63-96`. -/
def ReceiveState.searched (s : ReceiveState) : Nat :=
  match s.nextFragment with
  | .line n => lookedAt ((s.readBuffer.take s.maxReadableBytes).drop s.seenBytes) n
  | .literal k =>
    if s.maxReadableBytes - s.seenBytes < k then 0
    else lookedAt ((s.readBuffer.take s.maxReadableBytes).drop (s.seenBytes + k)) 0

/-- The bytes looked at by one call of `Server::progress_receive`, `/repo/src/server.rs:208-403`. -/
def Server.searchedReceive (s : Server) : Nat :=
  match s.receiveState with
  | .command st | .authenticateData st | .idleDone st => st.searched
  | .idleAccept _ | .dummy => 0

/-- The bytes looked at by one call of `Server::next`, `/repo/src/server.rs:489-499`. -/
def Server.searchedNext (L : Lib) (s : Server) : Nat :=
  match _hs : progressSend L s with
  | (s1, .ok none) =>
    s1.searchedReceive +
      match _hr : progressReceive L s1 with
      | .ok (s2, .ok none) => searchedNext L s2
      | _ => 0
  | _ => 0
termination_by s.unread
decreasing_by
  have h1 := Server.progressSend_receiveState _hs
  have h2 := Server.progressReceive_unread _hr
  have h3 : s1.unread = s.unread := by simp [Server.unread, h1]
  omega

/-- The bytes looked at by one call. -/
def Server.searchedCall (L : Lib) (s : Server) : ServerOp → Nat
  | .next => s.searchedNext L
  | _ => 0

/-- The bytes looked at during a list of calls. -/
def Server.searchedCalls (L : Lib) (s : Server) : List ServerOp → Nat
  | [] => 0
  | op :: ops =>
    s.searchedCall L op +
    match s.callTrace L op with
    | .ok (s, _) => searchedCalls L s ops
    | .error _ => 0

/-- The bytes looked at while a response is received; goes on after a literal like `receiveResponse`,
`/repo/src/client.rs:107-108,137-169`. -/
def searchedResponse (L : Lib) (s : ReceiveState) : Nat :=
  s.searched +
    match _h : s.next L.decodeResponse with
    | .ok (s1, .error (.error (.decodingFailure (.literalFound length)))) => searchedResponse L (s1.startLiteral length)
    | _ => 0
termination_by s.unread
decreasing_by
  have h1 : s1.unread < s.unread := ReceiveState.next_unread _h (by simp) (by simp)
  exact h1

/-- The bytes looked at by one call of `Client::progress_receive`, `/repo/src/client.rs:106-238`. -/
def Client.searchedReceive (L : Lib) (c : Client) : Nat :=
  match c.receiveState with
  | .greeting st => st.searched
  | .response st => searchedResponse L st
  | .dummy => 0

/-- The bytes looked at by one call of `Client::next`, `/repo/src/client.rs:272-284`. -/
def Client.searchedNext (L : Lib) (c : Client) : Nat :=
  match _hs : progressSend L c with
  | .ok (c1, .ok none) =>
    c1.searchedReceive L +
      match _hr : progressReceive L c1 with
      | .ok (c2, .ok none) => searchedNext L c2
      | _ => 0
  | _ => 0
termination_by c.unread
decreasing_by
  have h1 := Client.progressSend_unread _hs
  have h2 := Client.progressReceive_unread _hr
  have h3 : c1.unread = c.unread := by simp [Client.unread, h1]
  omega

/-- The bytes looked at by one call. -/
def Client.searchedCall (L : Lib) (c : Client) : ClientOp → Nat
  | .next => c.searchedNext L
  | _ => 0

/-- The bytes looked at during a list of calls. -/
def Client.searchedCalls (L : Lib) (c : Client) : List ClientOp → Nat
  | [] => 0
  | op :: ops =>
    c.searchedCall L op +
    match c.callTrace L op with
    | .ok (c, _) => searchedCalls L c ops
    | .error _ => 0

/-- The server is given the input byte by byte and called after each. -/
def serverByteByByte (x : Bytes) : List ServerOp := x.flatMap fun b => [.enqueueInput [b], .next]

/-- The client is given the input byte by byte and called after each. -/
def clientByteByByte (x : Bytes) : List ClientOp := x.flatMap fun b => [.enqueueInput [b], .next]

end ImapFlow
