import Verif.Model.Examples

/-!
# The example client without a stream (`/repo/examples/client_std.rs`)

It calls `Client::next` itself, with blocking reads and writes.  The environment chooses the results of `read` and
`write_all`.

Not modelled: establishing the connection and the output of `println!`.
-/

namespace ImapFlow

/-- Where the program is. -/
inductive StdCtl where
  /-- it calls `client.next()` -/
  | calling
  /-- in `stream.read`, `/repo/examples/client_std.rs:24,47` -/
  | reading
  /-- in `stream.write_all`, `/repo/examples/client_std.rs:51` -/
  | writing (bytes : Bytes)
  /-- a panic -/
  | dead
  deriving DecidableEq, Repr

/-- The running program. -/
structure StdClient where
  vars : Examples.LoginVars
  client : Client
  ctl : StdCtl
  deriving DecidableEq, Repr

/-- What happens next. -/
inductive StdAct where
  /-- `client.next()` is called -/
  | next
  /-- `read` returns these bytes, none at the end of the input -/
  | read (bytes : Bytes)
  | readFailed
  /-- `write_all` returns -/
  | wrote
  /-- `write_all` fails after it has written some bytes -/
  | writeFailed (count : Nat)
  deriving DecidableEq, Repr

/-- What has happened. -/
inductive StdItem where
  | starved
  | output (bytes : Bytes)
  | event (e : ClientEvent)
  /-- the program has called a method of the client -/
  | called (op : ClientOp)
  | read (bytes : Bytes)
  | written (bytes : Bytes)
  /-- the `unwrap()` of the result of `read` or `write_all` fails -/
  | ioFailed
  /-- `panic!("unexpected error: ...")`, or, before the greeting, `panic!("unexpected interrupt: ...")` with an error -/
  | nextFailed (error : ClientError)
  /-- `panic!("unexpected interrupt: ...")` with output, before the greeting -/
  | unexpectedOutput (bytes : Bytes)
  /-- an `assert_eq!` fails or a method of the client panics -/
  | panicked (p : Panic)
  deriving DecidableEq, Repr

namespace StdClient

/-- Before the first call of `next`, `/repo/examples/client_std.rs:16-18`. -/
def start (g : HandleGenerator) : StdClient :=
  { vars := .greeting, client := Client.new g .default, ctl := .calling }

/-- The program after `client.next()` has returned, `/repo/examples/client_std.rs:20-34,43-89`.  What it does with an event is
what `client.rs` does with it. -/
def resume (login : Bytes) (x : StdClient) : Except (Interrupt ClientError) ClientEvent → StdClient × List StdItem
  | .error (.io .needMoreInput) => ({ x with ctl := .reading }, [.starved])
  | .error (.io (.output bytes)) =>
    match x.vars with
    | .greeting => ({ x with ctl := .dead }, [.unexpectedOutput bytes])
    | .running _ => ({ x with ctl := .writing bytes }, [.output bytes])
  | .error (.error e) => ({ x with ctl := .dead }, [.nextFailed e])
  | .ok e =>
    match (Examples.client login).event x.vars x.client e false with
    | .error p => ({ x with ctl := .dead }, [.event e, .panicked p])
    | .ok (vars, client, calls, _) => ({ vars, client, ctl := .calling }, .event e :: calls.map .called)

/-- One step; `none` if the action is not possible.  The buffer for `read` has 128 bytes. -/
def step (L : Lib) (login : Bytes) (x : StdClient) (a : StdAct) : Option (StdClient × List StdItem) :=
  match x.ctl, a with
  | .calling, .next =>
    match x.client.next L with
    | .error p => some ({ x with ctl := .dead }, [.panicked p])
    | .ok (client, r) => some (resume login { x with client } r)
  | .reading, .read bytes =>
    if bytes.length ≤ 128 then
      match x.client.enqueueInput bytes with
      | .error p => some ({ x with ctl := .dead }, [.read bytes, .panicked p])
      | .ok client => some ({ x with client, ctl := .calling }, [.read bytes])
    else none
  | .reading, .readFailed => some ({ x with ctl := .dead }, [.ioFailed])
  | .writing bytes, .wrote => some ({ x with ctl := .calling }, [.written bytes])
  | .writing bytes, .writeFailed count => some ({ x with ctl := .dead }, [.written (bytes.take count), .ioFailed])
  | _, _ => none

/-- A run; `none` if some action is not possible. -/
def run (L : Lib) (login : Bytes) (x : StdClient) : List StdAct → Option (StdClient × List StdItem)
  | [] => some (x, [])
  | a :: as =>
    match x.step L login a with
    | none => none
    | some (x, items) =>
      match run L login x as with
      | none => none
      | some (x, T) => some (x, items ++ T)

end StdClient

end ImapFlow
