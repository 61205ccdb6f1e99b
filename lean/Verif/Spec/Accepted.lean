import Verif.Spec.FullTrace

/-!
# What a TLS connection accepts

The state hands out outputs; `encrypt` takes an output as a whole, or it refuses it after it has taken some of its first bytes.
-/

namespace ImapFlow

variable {ε ev ι : Type}

/-- In a record of a stream: the bytes are the outputs, in order, each as a whole if it was not refused, and only a proper beginning
of it if it was. -/
inductive Accepted : List (FullItem ε ev ι) → Bytes → Prop where
  | nil : Accepted [] []
  /-- an output that was not refused -/
  | whole {b p : Bytes} {T : List (FullItem ε ev ι)} : T.head? ≠ some .refused → Accepted T p →
      Accepted (.stream (.poll (.error (.io (.output b)))) :: T) (b ++ p)
  /-- an output that was refused -/
  | part {b q p : Bytes} {T : List (FullItem ε ev ι)} : q <+: b → q.length < b.length → Accepted T p →
      Accepted (.stream (.poll (.error (.io (.output b)))) :: .refused :: T) (q ++ p)
  /-- something else -/
  | other {i : FullItem ε ev ι} {p : Bytes} {T : List (FullItem ε ev ι)} :
      (∀ b, i ≠ .stream (.poll (.error (.io (.output b))))) → Accepted T p → Accepted (i :: T) p

/-- The records that wait in the connection. -/
def FullStream.waiting {K σ : Type} (c : FullStream K σ) : Bytes :=
  match c.tls with
  | none => []
  | some t => t.sendable.flatten

end ImapFlow
