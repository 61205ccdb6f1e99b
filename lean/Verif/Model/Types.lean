/-!
# Types shared by the model

Bytes, panics, interrupts (from `/repo/src/lib.rs`), the parts of `imap-types` that the code
inspects, and the interface of `imap-codec`/`imap-types` (`Lib`).

`imap-codec` and `imap-types` are external crates that are not part of `/repo`
(`/repo/Cargo.toml:25-26`).  Their data types are modelled here as far as `/repo` looks inside
them; everything else is an opaque payload (`other ...`).  Their functions are fields of the
structure `Lib`, so every theorem holds for every codec (that satisfies the contract the theorem
states explicitly).
-/

namespace ImapFlow

/-- A byte, Rust `u8`. -/
abbrev Byte := UInt8

/-- A byte string, Rust `Vec<u8>`, `&[u8]`, `BytesMut`. -/
abbrev Bytes := List UInt8

/-- `b'\n'`, `/repo/src/receive.rs:228`. -/
def LF : Byte := 10

/-- `b'\r'`, `/repo/src/receive.rs:229`. -/
def CR : Byte := 13

/-- The ways in which the Rust code could panic.  A panicking call has no result; in the model it
returns `Except.error p`. -/
inductive Panic where
  /-- slice index out of range / `Buf::advance` past the end / usize underflow -/
  | outOfRange
  /-- failed `assert!` -/
  | assertFailed
  /-- `unreachable!()` -/
  | unreachableCode
  /-- `unwrap()` on `Err`/`None` -/
  | unwrapFailed
  deriving DecidableEq, Repr

/-- `Io`, `/repo/src/lib.rs:68-73`. -/
inductive Io where
  | needMoreInput
  | output (bytes : Bytes)
  deriving DecidableEq, Repr

/-- `Interrupt<E>`, `/repo/src/lib.rs:59-64`. -/
inductive Interrupt (ε : Type) where
  | io (io : Io)
  | error (e : ε)
  deriving DecidableEq, Repr

/-- Result of a `&mut self` method with return type `Result<α, Interrupt<ε>>`:
a panic, or the new state together with the returned value. -/
abbrev Res (σ ε α : Type) := Except Panic (σ × Except (Interrupt ε) α)

deriving instance DecidableEq for Except

/-! ## imap-types -/

/-- `imap_types::core::Tag`. -/
abbrev Tag := Bytes

/-- `imap_types::core::Text` (a validated string; validity is `Lib.textValid`). -/
abbrev Text := Bytes

/-- `imap_types::core::Vec1<T>`: a non-empty vector. -/
structure Vec1 (α : Type) where
  head : α
  tail : List α
  deriving DecidableEq, Repr

/-- The elements of a `Vec1`. -/
def Vec1.toList {α : Type} (v : Vec1 α) : List α := v.head :: v.tail

/-- `Vec1::try_from(Vec<T>)`: fails on the empty vector. -/
def Vec1.tryFrom {α : Type} : List α → Option (Vec1 α)
  | [] => none
  | x :: xs => some ⟨x, xs⟩

/-- `imap_types::auth::AuthMechanism`; the mechanisms named in `/repo/proxy/src/util.rs:120-131`,
all others are `other`. -/
inductive AuthMechanism where
  | plain | login | xOAuth2
  | scramSha1 | scramSha1Plus | scramSha256 | scramSha256Plus
  | other (name : Bytes)
  deriving DecidableEq, Repr

/-- `imap_types::response::Capability`; the ones named in `/repo/proxy/src/util.rs:103-114` plus
some that are not on that list (`startTls`, `loginDisabled`), all others are `other`. -/
inductive Capability where
  | imap4Rev1
  | auth (mechanism : AuthMechanism)
  | saslIr
  | quota
  | quotaRes (resource : Bytes)
  | quotaSet
  | move
  | literalPlus
  | literalMinus
  | unselect
  | id
  | idle
  | startTls
  | loginDisabled
  | other (name : Bytes)
  deriving DecidableEq, Repr

/-- `imap_types::response::Code`; only `Alert` and `Capability` are inspected
(`/repo/proxy/src/proxy.rs:377-391`, `/repo/proxy/src/util.rs:20-97`). -/
inductive Code where
  | alert
  | capability (capabilities : Vec1 Capability)
  | other (data : Bytes)
  deriving DecidableEq, Repr

/-- `imap_types::response::StatusKind`. -/
inductive StatusKind where
  | ok | no | bad
  deriving DecidableEq, Repr

/-- `imap_types::response::StatusBody`. -/
structure StatusBody where
  kind : StatusKind
  code : Option Code
  text : Text
  deriving DecidableEq, Repr

/-- `imap_types::response::Status`. -/
inductive Status where
  | untagged (body : StatusBody)
  | tagged (tag : Tag) (body : StatusBody)
  | bye (code : Option Code) (text : Text)
  deriving DecidableEq, Repr

/-- `imap_types::response::Data`; only `Capability` is inspected (`/repo/proxy/src/util.rs:37-50`). -/
inductive Data where
  | capability (capabilities : Vec1 Capability)
  | other (content : Bytes)
  deriving DecidableEq, Repr

/-- `imap_types::response::CommandContinuationRequest`. -/
inductive ContinuationRequest where
  | basic (code : Option Code) (text : Text)
  | base64 (data : Bytes)
  deriving DecidableEq, Repr

/-- `imap_types::response::Response`. -/
inductive Response where
  | status (status : Status)
  | data (data : Data)
  | continuationRequest (request : ContinuationRequest)
  deriving DecidableEq, Repr

/-- `imap_types::response::GreetingKind`. -/
inductive GreetingKind where
  | ok | preAuth | bye
  deriving DecidableEq, Repr

/-- `imap_types::response::Greeting`. -/
structure Greeting where
  kind : GreetingKind
  code : Option Code
  text : Text
  deriving DecidableEq, Repr

/-- `imap_types::command::CommandBody`; only `Authenticate` and `Idle` are inspected
(`/repo/src/client_send.rs:340-382`, `/repo/src/server.rs:215-243`). -/
inductive CommandBody where
  | authenticate (mechanism : AuthMechanism) (initialResponse : Option Bytes)
  | idle
  | other (content : Bytes)
  deriving DecidableEq, Repr

/-- `imap_types::command::Command`. -/
structure Command where
  tag : Tag
  body : CommandBody
  deriving DecidableEq, Repr

/-- `imap_types::auth::AuthenticateData`. -/
inductive AuthenticateData where
  | «continue» (data : Bytes)
  | cancel
  deriving DecidableEq, Repr

/-- `CommandAuthenticate`, `/repo/src/types.rs:13-18`. -/
structure CommandAuthenticate where
  tag : Tag
  mechanism : AuthMechanism
  initialResponse : Option Bytes
  deriving DecidableEq, Repr

/-- `impl From<CommandAuthenticate> for Command`, `/repo/src/types.rs:20-30`. -/
def CommandAuthenticate.toCommand (c : CommandAuthenticate) : Command :=
  { tag := c.tag, body := .authenticate c.mechanism c.initialResponse }

/-- `imap_types::core::LiteralMode`. -/
inductive LiteralMode where
  | sync | nonSync
  deriving DecidableEq, Repr

/-! ## imap-codec -/

/-- `imap_codec::encode::Fragment`. -/
inductive Fragment where
  | line (data : Bytes)
  | literal (data : Bytes) (mode : LiteralMode)
  deriving DecidableEq, Repr

/-- The bytes of a fragment. -/
def Fragment.data : Fragment → Bytes
  | .line d => d
  | .literal d _ => d

/-- `imap_codec::decode::GreetingDecodeError`, also `AuthenticateDataDecodeError` and
`IdleDoneDecodeError`, which have the same two variants
(`/repo/src/client.rs:118`, `/repo/src/server.rs:342,379`). -/
inductive SimpleDecodeError where
  | incomplete | failed
  deriving DecidableEq, Repr

/-- `imap_codec::decode::ResponseDecodeError` (`/repo/src/client.rs:144-153`).
`length` is a `u32` in Rust. -/
inductive ResponseDecodeError where
  | incomplete
  | literalFound (length : Nat)
  | failed
  deriving DecidableEq, Repr

/-- `imap_codec::decode::CommandDecodeError` (`/repo/src/server.rs:246-247,313-314`).
`length` is a `u32` in Rust. -/
inductive CommandDecodeError where
  | incomplete
  | literalFound (tag : Tag) (length : Nat) (mode : LiteralMode)
  | failed
  deriving DecidableEq, Repr

/-- A decoder: `imap_codec::decode::Decoder::decode`.  On success it returns the remaining input
and the message. -/
abbrev Decoder (ε μ : Type) := Bytes → Except ε (Bytes × μ)

/-- The external library: `imap-codec` (with the default codecs used in
`/repo/src/client.rs:52-58`, `/repo/src/server.rs:123,128`) and the validating constructors of
`imap-types` used by `/repo`. -/
structure Lib where
  encodeGreeting : Greeting → List Fragment
  encodeCommand : Command → List Fragment
  encodeAuthenticateData : AuthenticateData → List Fragment
  encodeIdleDone : List Fragment
  encodeResponse : Response → List Fragment
  decodeGreeting : Decoder SimpleDecodeError Greeting
  decodeResponse : Decoder ResponseDecodeError Response
  decodeCommand : Decoder CommandDecodeError Command
  decodeAuthenticateData : Decoder SimpleDecodeError AuthenticateData
  decodeIdleDone : Decoder SimpleDecodeError Unit
  /-- `Text::try_from(&str).is_ok()` -/
  textValid : Bytes → Bool
  /-- the ambiguity check of `CommandContinuationRequestBasic::new`; it depends on whether a code
  is present and on the text -/
  ccrBasicValid : (hasCode : Bool) → Text → Bool

/-- `CommandContinuationRequest::basic(code, text)` with an already validated `Text`
(`/repo/src/server.rs:64,67,294-298`, `/repo/proxy/src/util.rs:90-93`). -/
def Lib.ccrBasicFromText (L : Lib) (code : Option Code) (text : Text) : Option ContinuationRequest :=
  if L.ccrBasicValid code.isSome text then some (.basic code text) else none

/-- `CommandContinuationRequest::basic(code, text)` with a `&str`/`String`, which additionally
validates the text (`/repo/src/server.rs:84-86,103-105`). -/
def Lib.ccrBasicFromStr (L : Lib) (code : Option Code) (text : Bytes) : Option ContinuationRequest :=
  if L.textValid text && L.ccrBasicValid code.isSome text then some (.basic code text) else none

end ImapFlow
