import Verif.Model.Config
import Verif.Spec.Service

/-!
# How an address is read

`TcpListener::bind` and `TcpStream::connect` of tokio take the address as text.  If it is not the text of an IP address with a port,
`std` splits it at the last colon (`str::rsplit_once`) and parses what follows as `u16`.
-/

namespace ImapFlow

/-- The digits of a number, read from the left; `n` was already read. -/
def digits16 : Nat → Bytes → Option Nat
  | n, [] => some n
  | n, b :: bs =>
    if 48 ≤ b ∧ b ≤ 57 then
      let n := 10 * n + (b.toNat - 48)
      if n < 65536 then digits16 n bs else none
    else none

/-- The text without a plus sign in front. -/
def withoutPlus : Bytes → Bytes
  | [] => []
  | b :: bs => if b = 43 then bs else b :: bs

/-- `u16::from_str`: an optional plus sign and at least one digit, no overflow. -/
def parse16 (text : Bytes) : Option UInt16 :=
  if withoutPlus text = [] then none else (digits16 0 (withoutPlus text)).map UInt16.ofNat

/-- What is before the last colon, and what is after it. -/
def splitLast : Bytes → Option (Bytes × Bytes)
  | [] => none
  | b :: bs =>
    match splitLast bs with
    | some (x, y) => some (b :: x, y)
    | none => if b = 58 then some ([], bs) else none

/-- The host that is looked up and the port. -/
def readAddress (text : Bytes) : Option (Bytes × UInt16) :=
  match splitLast text with
  | none => none
  | some (host, port) => (parse16 port).map fun port => (host, port)

def Bind.host : Bind → Bytes
  | .tls host _ _ | .insecure host _ => host

def Bind.port : Bind → UInt16
  | .tls _ port _ | .insecure _ port => port

def Bind.encrypted : Bind → Bool
  | .tls .. => true
  | .insecure .. => false

def Connect.host : Connect → Bytes
  | .tls host _ | .insecure host _ => host

def Connect.port : Connect → UInt16
  | .tls _ port | .insecure _ port => port

def Connect.encrypted : Connect → Bool
  | .tls .. => true
  | .insecure .. => false

end ImapFlow
