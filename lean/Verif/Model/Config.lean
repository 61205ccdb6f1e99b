import Verif.Model.Service
import Verif.Model.TagGenerator

/-!
# The configuration of the proxy, `/repo/proxy/src/config.rs`, and how `main` uses it, `/repo/proxy/src/main.rs:35-66`

Strings are lists of bytes.  Not modelled: the syntax of TOML (`Config::load`, lines 22-26).  A `port` that is missing in the file is
`none` in `Section`.
-/

namespace ImapFlow

/-- `Identity`, `/repo/proxy/src/config.rs:86-96`. -/
structure Identity where
  certificateChainPath : Bytes
  leafKeyPath : Bytes
  deriving DecidableEq, Repr

/-- `Bind`, `/repo/proxy/src/config.rs:38-60`. -/
inductive Bind where
  | insecure (host : Bytes) (port : UInt16)
  | tls (host : Bytes) (port : UInt16) (identity : Identity)
  deriving DecidableEq, Repr

/-- `Connect`, `/repo/proxy/src/config.rs:98-118`. -/
inductive Connect where
  | insecure (host : Bytes) (port : UInt16)
  | tls (host : Bytes) (port : UInt16)
  deriving DecidableEq, Repr

/-- `Service`, `/repo/proxy/src/config.rs:28-36`. -/
structure ServiceEntry where
  name : Bytes
  bind : Bind
  connect : Connect
  deriving DecidableEq, Repr

/-- `default_imap_port`, `/repo/proxy/src/config.rs:9-11`. -/
def defaultImapPort : UInt16 := 143

/-- `default_imaps_port`, `/repo/proxy/src/config.rs:13-15`. -/
def defaultImapsPort : UInt16 := 993

/-- What a section of the file says about a connection; `identity` is only used by `Bind::Tls`. -/
structure Section where
  /-- `encryption = "Tls"`, otherwise `"Insecure"` -/
  encrypted : Bool
  host : Bytes
  port : Option UInt16
  deriving DecidableEq, Repr

/-- `#[serde(default = ...)]`, `/repo/proxy/src/config.rs:47`, `55`, `107`, `115`. -/
def Section.portOrDefault (s : Section) : UInt16 :=
  match s.port with
  | some port => port
  | none => if s.encrypted then defaultImapsPort else defaultImapPort

/-- `/repo/proxy/src/config.rs:38-60`, `Deserialize`; the identity is required for `Bind::Tls`. -/
def Bind.ofSection (s : Section) (identity : Option Identity) : Option Bind :=
  if s.encrypted then identity.map fun identity => .tls s.host s.portOrDefault identity
  else some (.insecure s.host s.portOrDefault)

/-- `/repo/proxy/src/config.rs:98-118`, `Deserialize`. -/
def Connect.ofSection (s : Section) : Connect :=
  if s.encrypted then .tls s.host s.portOrDefault else .insecure s.host s.portOrDefault

/-- `format!("{host}:{port}")`. -/
def addrPort (host : Bytes) (port : UInt16) : Bytes := host ++ 58 :: decimal port.toNat

/-- `Bind::addr_port`, `/repo/proxy/src/config.rs:64-70`. -/
def Bind.addrPort : Bind → Bytes
  | .tls host port _ | .insecure host port => ImapFlow.addrPort host port

/-- `Connect::addr_port`, `/repo/proxy/src/config.rs:122-128`. -/
def Connect.addrPort : Connect → Bytes
  | .tls host port | .insecure host port => ImapFlow.addrPort host port

/-- `imaps://` -/
def imapsScheme : Bytes := [105, 109, 97, 112, 115, 58, 47, 47]

/-- `imap://` -/
def imapScheme : Bytes := [105, 109, 97, 112, 58, 47, 47]

/-- ` (TLS)` -/
def tlsSuffix : Bytes := [32, 40, 84, 76, 83, 41]

/-- ` (insecure)` -/
def insecureSuffix : Bytes := [32, 40, 105, 110, 115, 101, 99, 117, 114, 101, 41]

/-- `Display for Bind`, `/repo/proxy/src/config.rs:73-84`. -/
def Bind.display : Bind → Bytes
  | .tls host port _ => imapsScheme ++ host ++ 58 :: decimal port.toNat ++ tlsSuffix
  | .insecure host port => imapScheme ++ host ++ 58 :: decimal port.toNat ++ insecureSuffix

/-- `Display for Connect`, `/repo/proxy/src/config.rs:131-142`. -/
def Connect.display : Connect → Bytes
  | .tls host port => imapsScheme ++ host ++ 58 :: decimal port.toNat ++ tlsSuffix
  | .insecure host port => imapScheme ++ host ++ 58 :: decimal port.toNat ++ insecureSuffix

/-- What matters for the control flow; `valid` says for which hosts `ServerName::try_from(host)` succeeds and the root certificates
can be loaded, `/repo/proxy/src/proxy.rs:82-113`, `145-165`. -/
def ServiceEntry.control (valid : Bytes → Bool) (e : ServiceEntry) : ServiceConfig where
  bindTls := match e.bind with
    | .tls .. => true
    | .insecure .. => false
  connectTls := match e.connect with
    | .tls .. => true
    | .insecure .. => false
  hostValid := match e.connect with
    | .tls host _ => valid host
    | .insecure .. => true

/-- `main`, `/repo/proxy/src/main.rs:39-66`: one task for each service; it ends at once if `Proxy::bind` fails.  `bound` says for which
addresses it succeeds. -/
def Daemon.main {K : Type} (workers : Nat) (valid bound : Bytes → Bool) (services : List ServiceEntry) : Daemon K :=
  .start workers ((services.filter fun e => bound e.bind.addrPort).map (·.control valid))

end ImapFlow
