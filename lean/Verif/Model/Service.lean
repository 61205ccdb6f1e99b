import Verif.Model.Proxy

/-!
# The services of the proxy: accepting clients and connecting to servers

`/repo/proxy/src/main.rs` and `/repo/proxy/src/proxy.rs:60-185`.

The process (`Daemon`) runs tasks on the worker threads of tokio: one per service (`handle_service`) and one per accepted client
(`handle_client`).  A step of the environment completes something that a task awaits.  A task that is in an endless
loop occupies its worker thread for ever (`Proxy.hung`); if all worker threads are occupied no task makes a step.
Tasks that are done stay in the list, so that the position of a task is its name.

What the environment decides: results of sockets, whether the certificate files can be loaded, results of TLS handshakes
(with the resulting connection), and the handle generators of the new client and server (see C27 for how they differ).
Not modelled: command line and logging.  For the configuration and failing `bind` see `Model/Config.lean`.
-/

namespace ImapFlow

/-- The parts of `config::Service` (`/repo/proxy/src/config.rs:28-60`, `98-119`) that matter for the control flow. -/
structure ServiceConfig where
  /-- `Bind::Tls` -/
  bindTls : Bool
  /-- `Connect::Tls` -/
  connectTls : Bool
  /-- `ServerName::try_from(host)` succeeds and the root certificates can be loaded -/
  hostValid : Bool
  deriving DecidableEq, Repr

/-- Where `handle_service` is suspended. -/
inductive Accepting where
  /-- awaits `listener.accept()`, `/repo/proxy/src/proxy.rs:80` -/
  | listening
  /-- awaits the TLS handshake with a client, `/repo/proxy/src/proxy.rs:113` -/
  | handshaking
  deriving DecidableEq, Repr

/-- Where `handle_client` is suspended. -/
inductive Task (K : Type) where
  /-- awaits the connection to the server, `/repo/proxy/src/proxy.rs:143` -/
  | connecting (clientTls : Option (Tls K))
  /-- awaits the TLS handshake with the server, `/repo/proxy/src/proxy.rs:162` -/
  | handshaking (clientTls : Option (Tls K))
  /-- in `start_conversation`; `g` is the handle generator of the server -/
  | talking (g : HandleGenerator) (proxy : Proxy K)
  /-- returned an error -/
  | failed
  /-- panicked -/
  | panicked

/-- A service. -/
structure Service (K : Type) where
  config : ServiceConfig
  accepting : Accepting
  tasks : List (Task K)

/-- A running process. -/
structure Daemon (K : Type) where
  /-- worker threads of tokio -/
  workers : Nat
  services : List (Service K)

/-- What the environment does with `handle_service`. -/
inductive ServiceAct (K : Type) where
  /-- a connection is accepted; with `Bind::Tls`, `identity` says whether the certificate and key can be used -/
  | accepted (identity : Bool)
  /-- `listener.accept()` fails -/
  | acceptFailed
  /-- the pending handshake succeeds -/
  | secured (tls : Tls K)
  /-- the pending handshake fails -/
  | handshakeFailed

/-- What the environment does with `handle_client`. -/
inductive TaskAct (K : Type) where
  /-- the connection to the server is established -/
  | connected (client server : HandleGenerator)
  /-- the connection to the server fails -/
  | connectFailed
  /-- the pending handshake succeeds -/
  | secured (tls : Tls K) (client server : HandleGenerator)
  /-- the pending handshake fails -/
  | handshakeFailed
  /-- an action on the connections of the conversation -/
  | proxy (act : ProxyAct)

/-- What the environment does with a service. -/
inductive DaemonAct (K : Type) where
  /-- with the loop of service `i` -/
  | service (i : Nat) (act : ServiceAct K)
  /-- with task `j` of service `i` -/
  | task (i j : Nat) (act : TaskAct K)

/-- What happened in the conversation of task `j` of service `i`. -/
structure DaemonItem where
  service : Nat
  task : Nat
  item : ProxyItem
  deriving DecidableEq, Repr

namespace Task

variable {K : Type}

/-- `connect_to_server` up to the next `.await`, then `start_conversation`, `/repo/proxy/src/proxy.rs:140-177`,
`/repo/proxy/src/main.rs:91-95`. -/
def step (L : Lib) (config : ServiceConfig) : Task K → TaskAct K → Option (Task K × List ProxyItem)
  | .connecting clientTls, .connected client server =>
    if config.connectTls then
      if config.hostValid then some (.handshaking clientTls, [])
      else some (.panicked, [])
    else some (.talking server (.start clientTls none client), [])
  | .connecting _, .connectFailed => some (.failed, [])
  | .handshaking clientTls, .secured tls client server =>
    some (.talking server (.start clientTls (some tls) client), [])
  | .handshaking _, .handshakeFailed => some (.failed, [])
  | .talking g proxy, .proxy act =>
    match proxy.step L g act with
    | none => none
    | some (proxy, items) => some (.talking g proxy, items)
  | _, _ => none

/-- The task occupies a worker thread for ever. -/
def isHung : Task K → Bool
  | .talking _ .hung => true
  | _ => false

end Task

namespace Service

variable {K : Type}

/-- The loop of `handle_service` up to the next `.await`, `/repo/proxy/src/main.rs:58-88`, with `accept_client`,
`/repo/proxy/src/proxy.rs:79-125`. -/
def step (s : Service K) : ServiceAct K → Option (Service K)
  | .accepted identity =>
    match s.accepting with
    | .listening =>
      if s.config.bindTls then
        if identity then some { s with accepting := .handshaking }
        else some s
      else some { s with tasks := s.tasks ++ [.connecting none] }
    | .handshaking => none
  | .acceptFailed =>
    match s.accepting with
    | .listening => some s
    | .handshaking => none
  | .secured tls =>
    match s.accepting with
    | .handshaking => some { s with accepting := .listening, tasks := s.tasks ++ [.connecting (some tls)] }
    | .listening => none
  | .handshakeFailed =>
    match s.accepting with
    | .handshaking => some { s with accepting := .listening }
    | .listening => none

end Service

namespace Daemon

variable {K : Type}

/-- `main`, `/repo/proxy/src/main.rs:22-55`: every service waits for its first client. -/
def start (workers : Nat) (configs : List ServiceConfig) : Daemon K :=
  { workers, services := configs.map fun config => { config, accepting := .listening, tasks := [] } }

/-- The number of worker threads that are occupied for ever. -/
def occupied (p : Daemon K) : Nat := (p.services.flatMap Service.tasks).countP Task.isHung

/-- A step; `none` if it is not possible. -/
def step (L : Lib) (p : Daemon K) (act : DaemonAct K) : Option (Daemon K × List DaemonItem) :=
  if p.workers ≤ p.occupied then none
  else
    match act with
    | .service i act =>
      match p.services[i]? with
      | none => none
      | some service =>
        match service.step act with
        | none => none
        | some service => some ({ p with services := p.services.set i service }, [])
    | .task i j act =>
      match p.services[i]? with
      | none => none
      | some service =>
        match service.tasks[j]? with
        | none => none
        | some task =>
          match task.step L service.config act with
          | none => none
          | some (task, items) =>
            some ({ p with services := p.services.set i { service with tasks := service.tasks.set j task } },
              items.map fun item => ⟨i, j, item⟩)

/-- A run; `none` if some step is not possible. -/
def run (L : Lib) (p : Daemon K) : List (DaemonAct K) → Option (Daemon K × List DaemonItem)
  | [] => some (p, [])
  | a :: as =>
    match p.step L a with
    | none => none
    | some (p, items) =>
      match run L p as with
      | none => none
      | some (p, T) => some (p, items ++ T)

end Daemon

end ImapFlow
