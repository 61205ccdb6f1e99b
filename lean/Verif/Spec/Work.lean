import Verif.Spec.ServerTrace
import Verif.Spec.Toy

/-!
# What is given to the decoder

The server decodes once after each complete line with an acceptable line ending
(`/repo/src/receive.rs:121-133`).  The decoder is given the whole current message from its start, and each of
these attempts ends with one of the items below.
-/

namespace ImapFlow

/-- The bytes given to the decoder in the attempt that ended with this item. -/
def SItem.attempt? : SItem → Option Bytes
  | .received w _ => some w
  | .literal p _ => some p
  | .failed (.malformedMessage w) _ => some w
  | .failed (.literalTooLong w) _ => some w
  | _ => none

/-- What was given to the decoder, attempt by attempt. -/
def attempts (T : List SItem) : List Bytes := T.filterMap SItem.attempt?

/-- How many bytes were given to the decoder in total. -/
def decodedBytes (T : List SItem) : Nat := ((attempts T).map List.length).sum

/-- The item is an accepted announcement of a literal. -/
def SItem.isLiteral : SItem → Bool
  | .literal .. => true
  | _ => false

/-- How many announcements of literals were accepted. -/
def literalCount (T : List SItem) : Nat := T.countP SItem.isLiteral

/-- The library with other decoders on the side of the server. -/
def Lib.decodeWith (L : Lib) (cmd : Decoder CommandDecodeError Command)
    (auth : Decoder SimpleDecodeError AuthenticateData) (idle : Decoder SimpleDecodeError Unit) : Lib :=
  { L with decodeCommand := cmd, decodeAuthenticateData := auth, decodeIdleDone := idle }

/-- The other decoders agree on these bytes. -/
def Lib.Agree (L : Lib) (cmd : Decoder CommandDecodeError Command) (auth : Decoder SimpleDecodeError AuthenticateData)
    (idle : Decoder SimpleDecodeError Unit) (w : Bytes) : Prop :=
  cmd w = L.decodeCommand w ∧ auth w = L.decodeAuthenticateData w ∧ idle w = L.decodeIdleDone w

/-- `A{+` CRLF: the toy codec reads it as the announcement of a literal of no bytes that needs no permission. -/
def emptyLiteral : Bytes := [65, 123, 43, 13, 10]

/-- That announcement `n` times in a row: the beginning of one command. -/
def emptyLiterals : Nat → Bytes
  | 0 => []
  | n + 1 => emptyLiteral ++ emptyLiterals n

/-- The server sends its greeting, then the announcements arrive one by one. -/
def emptyLiteralOps : Nat → List ServerOp
  | 0 => [.next, .next]
  | n + 1 => emptyLiteralOps n ++ [.enqueueInput emptyLiteral, .next]

end ImapFlow
