import Verif.Model.Types

/-!
# The contract of the external codec

What the theorems assume about `imap-codec`/`imap-types`.  Nothing is assumed about which bytes
encode which message, except where a theorem asks for a round trip of particular messages.
-/

namespace ImapFlow

/-- Contract of a decoder; `lit e` is the length of the announced literal if the error `e` announces
one. -/
structure LawfulDecoder {ε μ : Type} (dec : Decoder ε μ) (lit : ε → Option Nat) : Prop where
  /-- A successful decode consumes a part of the input that is a message of its own and ends with a
  line ending. -/
  consumes : ∀ i rem m, dec i = .ok (rem, m) → ∃ c, i = c ++ [LF] ++ rem ∧ dec (c ++ [LF]) = .ok ([], m)
  /-- If a literal of `k` bytes was announced, a message that continues this beginning consumes the
  `k` bytes and something after them. -/
  literal : ∀ p e k x rem m, dec p = .error e → lit e = some k → dec (p ++ x) = .ok (rem, m) →
    rem.length + k < x.length

/-- The announced literal of a response. -/
def ResponseDecodeError.literal : ResponseDecodeError → Option Nat
  | .literalFound length => some length
  | _ => none

/-- The announced literal of a command. -/
def CommandDecodeError.literal : CommandDecodeError → Option Nat
  | .literalFound _ length _ => some length
  | _ => none

/-- Greetings, authenticate data and DONE have no literals. -/
def SimpleDecodeError.literal : SimpleDecodeError → Option Nat
  | _ => none

/-- The fragments are exactly one non-empty line. -/
def SingleLine (fs : List Fragment) : Prop := ∃ d, fs = [.line d] ∧ d ≠ []

/-- The contract of the library. -/
structure Lib.Lawful (L : Lib) : Prop where
  greeting : LawfulDecoder L.decodeGreeting SimpleDecodeError.literal
  response : LawfulDecoder L.decodeResponse ResponseDecodeError.literal
  command : LawfulDecoder L.decodeCommand CommandDecodeError.literal
  authenticateData : LawfulDecoder L.decodeAuthenticateData SimpleDecodeError.literal
  idleDone : LawfulDecoder L.decodeIdleDone SimpleDecodeError.literal
  /-- AUTHENTICATE is encoded as one line. -/
  encodeAuthenticate : ∀ tag mechanism ir, SingleLine (L.encodeCommand ⟨tag, .authenticate mechanism ir⟩)
  /-- IDLE is encoded as one line. -/
  encodeIdle : ∀ tag, SingleLine (L.encodeCommand ⟨tag, .idle⟩)
  /-- Authenticate data is encoded as one line. -/
  encodeData : ∀ d, SingleLine (L.encodeAuthenticateData d)
  /-- DONE is encoded as one line. -/
  encodeDone : SingleLine L.encodeIdleDone
  /-- Every command starts with a non-empty line. -/
  encodeCommand : ∀ c, ∃ d rest, L.encodeCommand c = .line d :: rest ∧ d ≠ []
  /-- `CommandContinuationRequest::basic(None, "...")` succeeds. -/
  defaultText : L.ccrBasicValid false [46, 46, 46] = true

end ImapFlow
