import Verif.Model.Identity
import Verif.Spec.Service

/-!
# What the files of a service say
-/

namespace ImapFlow

/-- The certificate in an item. -/
def PemItem.certificate? : PemItem → Option Bytes
  | .certificate der => some der
  | _ => none

/-- The key in an item, if it has the format PKCS#8. -/
def PemItem.pkcs8? : PemItem → Option Bytes
  | .pkcs8Key der => some der
  | _ => none

/-- The file can be read to its end, and has these items. -/
def Disk.Holds (disk : Disk) (path : Bytes) (items : List PemItem) : Prop := disk path = .ok (items.map .ok)

/-- Reading the file ends with this error, at the start or later. -/
def Disk.Fails (disk : Disk) (path : Bytes) (e : Nat) : Prop :=
  disk path = .error e ∨ ∃ (items : List PemItem) (rest : List (Except Nat PemItem)), disk path = .ok (items.map .ok ++ .error e :: rest)

/-- The chain and the key that the files of an identity say: all certificates of the one, and the only key of the other. -/
def Identity.Says (disk : Disk) (identity : Identity) (chain : List Bytes) (key : Bytes) : Prop :=
  ∃ certs keys, disk.Holds identity.certificateChainPath certs ∧ disk.Holds identity.leafKeyPath keys ∧
    certs.filterMap PemItem.certificate? = chain ∧ keys.filterMap PemItem.pkcs8? = [key]

/-- What happens to the process, with the files at this time: a client that is accepted gets to the handshake if the files of the
service allow it. -/
def DaemonAct.Real {K : Type} (accepts : List Bytes → Bytes → Bool) (services : List ServiceEntry) : Disk × DaemonAct K → Prop
  | (disk, .service i (.accepted identity)) => ∀ e, services[i]? = some e → identity = e.bind.ready accepts disk
  | _ => True

/-- The files at the time when the client was accepted whose handshake with service `i` is pending, and those at the times when the clients
were accepted that are done with the handshake, in order. -/
def acceptedWith {K : Type} (i : Nat) (as : List (Disk × DaemonAct K)) : Option Disk × List Disk :=
  as.foldl (fun b a =>
    match a with
    | (disk, .service i' (.accepted true)) => if i' = i then (some disk, b.2) else b
    | (_, .service i' (.secured _)) => if i' = i then (none, b.2 ++ b.1.toList) else b
    | (_, .service i' .handshakeFailed) => if i' = i then (none, b.2) else b
    | _ => b) (none, [])

end ImapFlow
