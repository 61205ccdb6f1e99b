import Verif.Model.Stream
import Verif.Spec.ClientHistory
import Verif.Spec.ServerHistory

/-!
# Observing a stream

Projections of the list of things that happened (`StreamItem`), the replay of the state that belongs to
it, and the states `Client` and `Server`.
-/

namespace ImapFlow

variable {σ ε ev ι : Type}

/-- Bytes read from the socket. -/
def streamRead (T : List (StreamItem ε ev ι)) : Bytes :=
  T.flatMap fun
    | .read b => b
    | _ => []

/-- Bytes passed to the state by the stream. -/
def streamDelivered (T : List (StreamItem ε ev ι)) : Bytes :=
  T.flatMap fun
    | .deliver b => b
    | _ => []

/-- Bytes the state handed out to the stream. -/
def streamOutput (T : List (StreamItem ε ev ι)) : Bytes :=
  T.flatMap fun
    | .poll (.error (.io (.output b))) => b
    | _ => []

/-- Bytes written to the socket. -/
def streamWrote (T : List (StreamItem ε ev ι)) : Bytes :=
  T.flatMap fun
    | .wrote b => b
    | _ => []

/-- The state after the calls recorded in a list of items; `none` if a call panics or has another result
than the recorded one. -/
def Machine.replay [DecidableEq ε] [DecidableEq ev] (M : Machine σ ε ev ι) (s : σ) :
    List (StreamItem ε ev ι) → Option σ
  | [] => some s
  | .user op :: T =>
    match M.user s op with
    | .ok s => replay M s T
    | .error _ => none
  | .deliver b :: T =>
    match M.enqueueInput s b with
    | .ok s => replay M s T
    | .error _ => none
  | .poll r :: T =>
    match M.next s with
    | .ok (s, r') => if r' = r then replay M s T else none
    | .error _ => none
  | _ :: T => replay M s T

/-- `b` is a reason for `next` to return `r`. -/
def StreamItem.Explains (b : StreamItem ε ev ι) : Except (StreamError ε) ev → Prop
  | .ok event => b = .poll (.ok event)
  | .error (.state e) => b = .poll (.error (.error e))
  | .error .closed => b = .read [] ∨ b = .wrote []
  | .error .io => b = .failed
  | .error .tls => False

/-- `Client` as a state, `/repo/src/client.rs:260-280`; its owner may call every method in between. -/
def clientMachine (L : Lib) : Machine Client ClientError ClientEvent ClientOp where
  enqueueInput c b := c.enqueueInput b
  next c := c.next L
  user c op := (c.call L op).map Prod.fst

/-- `Server` as a state, `/repo/src/server.rs:475-500`; its owner may call every method in between. -/
def serverMachine (L : Lib) : Machine Server ServerError ServerEvent ServerOp where
  enqueueInput s b := s.enqueueInput b
  next s := s.next L
  user s op := (s.call L op).map Prod.fst

end ImapFlow
