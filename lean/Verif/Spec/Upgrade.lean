import Verif.Model.Upgrade
import Verif.Spec.RelayDialogue
import Verif.Spec.FullTrace

/-!
# A connection that is upgraded to TLS
-/

namespace ImapFlow

variable {K σ ε ev ι : Type}

/-- A connection that begins without TLS and is upgraded once: the stream before the upgrade with what happened on it, and the stream at
the end with what happened since the upgrade. -/
structure Upgraded (M : Machine σ ε ev ι) (s : σ) (t : Tls K) where
  before : FullStream K σ
  itemsBefore : List (FullItem ε ev ι)
  after : FullStream K σ
  itemsAfter : List (FullItem ε ev ι)
  /-- without TLS -/
  first : ∃ as, FullStream.run M (.insecure s) as = some (before, itemsBefore)
  /-- with TLS -/
  second : ∃ as c, before.upgrade t = some c ∧ FullStream.run M c as = some (after, itemsAfter)

/-- The connection for given actions of the environment. -/
def upgradedRun (M : Machine σ ε ev ι) (s : σ) (t : Tls K) (as as' : List (StreamAct ι)) :
    Option (FullStream K σ × List (FullItem ε ev ι) × FullStream K σ × List (FullItem ε ev ι)) :=
  match FullStream.run M (.insecure s) as with
  | none => none
  | some (before, T) =>
    match before.upgrade t with
    | none => none
    | some c =>
      match FullStream.run M c as' with
      | none => none
      | some (after, T') => some (before, T, after, T')

/-- What `next` and `flush` returned; a successful `flush` is `none`. -/
def returnedOrFlushed (T : List (FullItem ε ev ι)) : List (Option (Except (StreamError ε) ev)) :=
  T.filterMap fun
    | .stream (.returned r) => some (some r)
    | .stream (.flushed (.ok ())) => some none
    | _ => none

namespace Upgraded

variable {M : Machine σ ε ev ι} {s : σ} {t : Tls K}

/-- What the stream did before the upgrade. -/
def plainPart (u : Upgraded M s t) : List (StreamItem ε ev ι) := streamPart u.itemsBefore

/-- What the stream did after the upgrade. -/
def securePart (u : Upgraded M s t) : List (StreamItem ε ev ι) := streamPart u.itemsAfter

/-- After the upgrade the peer has sent valid records without `close_notify`, and perhaps a beginning of a record; they contain `cs`. -/
def Protected (u : Upgraded M s t) (cs : List RecordContent) : Prop :=
  ∃ records part k, t.raw ++ streamRead u.securePart = records ++ part ∧ t.layer.Carries t.readKey records cs k ∧
    RecordContent.closeNotify ∉ cs ∧ t.layer.unprotect k part = .incomplete

end Upgraded

/-- The owner of the server leaves `next` and `enqueue_input` to the stream. -/
def Upgraded.OwnedServer {L : Lib} {s : Server} {t : Tls K} (u : Upgraded (serverMachine L) s t) : Prop :=
  (.user .next ∉ u.plainPart ∧ ∀ b, .user (.enqueueInput b) ∉ u.plainPart) ∧
    (.user .next ∉ u.securePart ∧ ∀ b, .user (.enqueueInput b) ∉ u.securePart)

/-- The owner of the client leaves `next` and `enqueue_input` to the stream. -/
def Upgraded.OwnedClient {L : Lib} {s : Client} {t : Tls K} (u : Upgraded (clientMachine L) s t) : Prop :=
  (.user .next ∉ u.plainPart ∧ ∀ b, .user (.enqueueInput b) ∉ u.plainPart) ∧
    (.user .next ∉ u.securePart ∧ ∀ b, .user (.enqueueInput b) ∉ u.securePart)

end ImapFlow
