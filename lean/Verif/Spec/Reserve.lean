import Verif.Spec.Search

/-!
# How much memory is asked for

`start_literal` calls `read_buffer.reserve(length)` (`/repo/src/receive.rs:46-49`): memory for the whole literal is
asked for when it is announced.  The model has no memory; the functions below list the capacities of the read buffer
that are asked for (the bytes in it and the announced length), along the same calls as the model.
-/

namespace ImapFlow

/-- The lengths that a decoder for responses can find are at most `N`. -/
def Lib.Announces (L : Lib) (N : Nat) : Prop := ∀ i k, L.decodeResponse i = .error (.literalFound k) → k ≤ N

/-- The capacity that `start_literal` asked for, if the state is the one that it left. -/
def ReceiveState.asked (s : ReceiveState) : List Nat :=
  match s.nextFragment with
  | .literal length => [s.readBuffer.length + length]
  | .line _ => []

/-- The capacity that was asked for when a literal was accepted, `/repo/src/server.rs:286-309`. -/
def Server.asked (s : Server) : List Nat :=
  match s.receiveState with
  | .command st | .authenticateData st | .idleAccept st | .idleDone st => st.asked
  | .dummy => []

/-- The capacities asked for by one call of `Server::next`, `/repo/src/server.rs:489-499`. -/
def Server.reservesNext (L : Lib) (s : Server) : List Nat :=
  match _hs : progressSend L s with
  | (s1, .ok none) =>
    match _hr : progressReceive L s1 with
    | .ok (s2, .ok none) => s2.asked ++ reservesNext L s2
    | _ => []
  | _ => []
termination_by s.unread
decreasing_by
  have h1 := Server.progressSend_receiveState _hs
  have h2 := Server.progressReceive_unread _hr
  have h3 : s1.unread = s.unread := by simp [Server.unread, h1]
  omega

/-- The capacities asked for by one call. -/
def Server.reservesCall (L : Lib) (s : Server) : ServerOp → List Nat
  | .next => s.reservesNext L
  | _ => []

/-- The capacities asked for during a list of calls. -/
def Server.reserves (L : Lib) (s : Server) : List ServerOp → List Nat
  | [] => []
  | op :: ops =>
    s.reservesCall L op ++
    match s.callTrace L op with
    | .ok (s, _) => reserves L s ops
    | .error _ => []

/-- The capacities asked for while a response is received, `/repo/src/client.rs:107-108,137-169`. -/
def reservesResponse (L : Lib) (s : ReceiveState) : List Nat :=
  match _h : s.next L.decodeResponse with
  | .ok (s1, .error (.error (.decodingFailure (.literalFound length)))) =>
    (s1.startLiteral length).asked ++ reservesResponse L (s1.startLiteral length)
  | _ => []
termination_by s.unread
decreasing_by
  have h1 : s1.unread < s.unread := ReceiveState.next_unread _h (by simp) (by simp)
  exact h1

/-- The capacities asked for by one call of `Client::progress_receive`, `/repo/src/client.rs:106-238`. -/
def Client.reservesReceive (L : Lib) (c : Client) : List Nat :=
  match c.receiveState with
  | .response st => reservesResponse L st
  | .greeting _ | .dummy => []

/-- The capacities asked for by one call of `Client::next`, `/repo/src/client.rs:272-284`. -/
def Client.reservesNext (L : Lib) (c : Client) : List Nat :=
  match _hs : progressSend L c with
  | .ok (c1, .ok none) =>
    c1.reservesReceive L ++
      match _hr : progressReceive L c1 with
      | .ok (c2, .ok none) => reservesNext L c2
      | _ => []
  | _ => []
termination_by c.unread
decreasing_by
  have h1 := Client.progressSend_unread _hs
  have h2 := Client.progressReceive_unread _hr
  have h3 : c1.unread = c.unread := by simp [Client.unread, h1]
  omega

/-- The capacities asked for by one call. -/
def Client.reservesCall (L : Lib) (c : Client) : ClientOp → List Nat
  | .next => c.reservesNext L
  | _ => []

/-- The capacities asked for during a list of calls. -/
def Client.reserves (L : Lib) (c : Client) : List ClientOp → List Nat
  | [] => []
  | op :: ops =>
    c.reservesCall L op ++
    match c.callTrace L op with
    | .ok (c, _) => reserves L c ops
    | .error _ => []

end ImapFlow
