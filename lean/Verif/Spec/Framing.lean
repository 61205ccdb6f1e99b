import Verif.Model.Types

/-!
# Declarative framing of a byte stream

What it means for bytes to be a complete, rejected or unfinished message on the wire.  This
specification does not know about buffers, chunks or already-seen bytes.

A message is a sequence `line literal line literal ... line`: as long as decoding the bytes up to the
end of a line answers "a literal of `k` bytes follows" (and the literal is acceptable), the next `k`
bytes are opaque and another line follows.
-/

namespace ImapFlow

/-- A line: it ends with its first LF. -/
def IsLine (l : Bytes) : Prop := ∃ b, l = b ++ [LF] ∧ LF ∉ b

/-- The line ending is acceptable: CRLF, or anything in relaxed mode. -/
def CrlfOk (relaxed : Bool) (l : Bytes) : Prop := relaxed = true ∨ ∃ b, l = b ++ [CR, LF]

/-- Parameters of the framing: line ending mode, decoder, and for each decoding error the length of
the literal that follows if the error announces an acceptable literal. -/
structure Framing (ε μ : Type) where
  relaxed : Bool
  dec : Decoder ε μ
  lit : ε → Option Nat

variable {ε μ : Type}

/-- `p` is the beginning of a message that stops right after a literal (or is empty): the next byte
begins a line. -/
inductive Announced (F : Framing ε μ) : Bytes → Prop
  | nil : Announced F []
  | literal {p l d : Bytes} {e : ε} : Announced F p → IsLine l → CrlfOk F.relaxed l →
      F.dec (p ++ l) = .error e → F.lit e = some d.length → Announced F (p ++ l ++ d)

/-- `w` is exactly one complete message, decoded to `m`. -/
def IsMessage (F : Framing ε μ) (w : Bytes) (m : μ) : Prop :=
  ∃ p l, w = p ++ l ∧ Announced F p ∧ IsLine l ∧ CrlfOk F.relaxed l ∧ F.dec w = .ok ([], m)

/-- `w` ends with a line that makes it undecodable with error `e` (which does not announce an
acceptable literal). -/
def IsUndecodable (F : Framing ε μ) (w : Bytes) (e : ε) : Prop :=
  ∃ p l, w = p ++ l ∧ Announced F p ∧ IsLine l ∧ CrlfOk F.relaxed l ∧ F.dec w = .error e ∧ F.lit e = none

/-- `w` ends with a line that has a forbidden line ending. -/
def IsBadLine (F : Framing ε μ) (w : Bytes) : Prop :=
  ∃ p l, w = p ++ l ∧ Announced F p ∧ IsLine l ∧ ¬ CrlfOk F.relaxed l

/-- `w` is exactly a complete message, an undecodable message or a forbidden line. -/
def IsUnit (F : Framing ε μ) (w : Bytes) : Prop :=
  (∃ m, IsMessage F w m) ∨ (∃ e, IsUndecodable F w e) ∨ IsBadLine F w

/-- `w` is the beginning of a message whose last line is not finished. -/
def IsPartialLine (F : Framing ε μ) (w : Bytes) : Prop :=
  ∃ p q, w = p ++ q ∧ Announced F p ∧ LF ∉ q

/-- `w` is the beginning of a message whose last literal is not finished. -/
def IsPartialLiteral (F : Framing ε μ) (w : Bytes) : Prop :=
  ∃ p l d e k, w = p ++ l ++ d ∧ Announced F p ∧ IsLine l ∧ CrlfOk F.relaxed l ∧
    F.dec (p ++ l) = .error e ∧ F.lit e = some k ∧ d.length < k

/-- `w` is the beginning of a message that cannot be decided yet. -/
def IsUnfinished (F : Framing ε μ) (w : Bytes) : Prop := IsPartialLine F w ∨ IsPartialLiteral F w

end ImapFlow
