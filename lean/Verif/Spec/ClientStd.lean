import Verif.Model.ClientStd
import Verif.Spec.Examples
import Verif.Spec.ClientTrace

/-!
# What happened in a run of the example client without a stream
-/

namespace ImapFlow

/-- A run of `client_std.rs`, from its start. -/
def StdRuns (L : Lib) (g : HandleGenerator) (login : Bytes) (x : StdClient) (T : List StdItem) : Prop :=
  ∃ as, (StdClient.start g).run L login as = some (x, T)

/-- The call on the client. -/
def StdItem.op? : StdItem → Option ClientOp
  | .starved | .output _ | .event _ | .nextFailed _ | .unexpectedOutput _ => some .next
  | .read bytes => some (.enqueueInput bytes)
  | .called op => some op
  | .written _ | .ioFailed | .panicked _ => none

def StdItem.event? : StdItem → Option ClientEvent
  | .event e => some e
  | _ => none

def StdItem.call? : StdItem → Option ClientOp
  | .called op => some op
  | _ => none

def StdItem.writes : StdItem → Bytes
  | .written bytes => bytes
  | _ => []

/-- All calls on the client, in order. -/
def stdOps (T : List StdItem) : List ClientOp := T.filterMap StdItem.op?

/-- The events that the program got. -/
def stdEvents (T : List StdItem) : List ClientEvent := T.filterMap StdItem.event?

/-- The calls other than `next` and `enqueue_input`. -/
def stdCalls (T : List StdItem) : List ClientOp := T.filterMap StdItem.call?

/-- The bytes on the socket. -/
def stdWritten (T : List StdItem) : Bytes := T.flatMap StdItem.writes

/-- What `write_all` has yet to write. -/
def StdClient.unwritten (x : StdClient) : Bytes :=
  match x.ctl with
  | .writing bytes => bytes
  | _ => []

end ImapFlow
