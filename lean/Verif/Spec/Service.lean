import Verif.Model.Service

/-!
# What happens to a client of the proxy

Reads off an execution of the process what was done with one service or one client.  Nothing here uses the step
functions.
-/

namespace ImapFlow

variable {K : Type}

/-- Service `i` of the process. -/
def Daemon.service? (p : Daemon K) (i : Nat) : Option (Service K) := p.services[i]?

/-- The task of client `j` of service `i`. -/
def Daemon.task? (p : Daemon K) (i j : Nat) : Option (Task K) := (p.services[i]?).bind fun s => s.tasks[j]?

/-- What happened in the conversation of client `j` of service `i`. -/
def taskItems (i j : Nat) (T : List DaemonItem) : List ProxyItem :=
  T.filterMap fun x => if x.service = i ∧ x.task = j then some x.item else none

/-- What the peers of the conversation of client `j` of service `i` did. -/
def DaemonAct.talk? (i j : Nat) : DaemonAct K → Option ProxyAct
  | .task i' j' (.proxy act) => if i' = i ∧ j' = j then some act else none
  | _ => none

/-- What the peers of the conversation of client `j` of service `i` did. -/
def talkActs (i j : Nat) (as : List (DaemonAct K)) : List ProxyAct := as.filterMap (DaemonAct.talk? i j)

/-- What the environment acts on: the accept loop of a service (`none`) or one of its tasks. -/
def DaemonAct.target : DaemonAct K → Nat × Option Nat
  | .service i _ => (i, none)
  | .task i j _ => (i, some j)

/-- A client of service `i` (with `Bind::Tls`) was accepted and its handshake is neither done nor failed. -/
def handshakePending (i : Nat) (as : List (DaemonAct K)) : Bool :=
  as.foldl (fun b a =>
    match a with
    | .service i' (.accepted true) => if i' = i then true else b
    | .service i' (.secured _) => if i' = i then false else b
    | .service i' .handshakeFailed => if i' = i then false else b
    | _ => b) false

/-- The connections of a conversation of service `i` come from the handshakes that the configuration asks for. -/
structure FromHandshakes (config : ServiceConfig) (i j : Nat) (as : List (DaemonAct K)) (clientTls serverTls : Option (Tls K)) :
    Prop where
  client : clientTls.isSome = config.bindTls
  server : serverTls.isSome = config.connectTls
  clientHandshake : ∀ t, clientTls = some t → .service i (.secured t) ∈ as
  serverHandshake : ∀ t, serverTls = some t → ∃ gc gs, .task i j (.secured t gc gs) ∈ as

end ImapFlow
