import Verif.Model.Types

/-!
# Model of the plain (non-TLS) `Stream`, `/repo/src/stream.rs`

`Stream::next` and `Stream::flush` are `async`.  Between two `.await` points they run without
interruption; at an `.await` point the future is suspended until the socket becomes ready, or it is
dropped.  The model is a transition system whose states are the suspension points (`StreamCtl`) and whose
actions (`StreamAct`) are chosen by the environment: the caller (calls, dropping a pending future, using
the state between the calls) and the socket (how many bytes are read or written, end of file, errors,
which branch of `select!` is served).

Assumed about tokio (not part of `/repo`):

* `read_buf` and `write` are cancel safe: a dropped call has neither read nor written anything;
* `TcpStream::flush` does nothing and succeeds (`/repo/src/stream.rs:83`);
* `select!` drops the branch that was not served.

The debug-only logging (`/repo/src/stream.rs:206-213`, `231-235`) is not modelled.
-/

namespace ImapFlow

/-- `State`, `/repo/src/lib.rs:27-41`, together with the other methods (`ι`) its owner may call between two
calls of the stream. -/
structure Machine (σ ε ev ι : Type) where
  enqueueInput : σ → Bytes → Except Panic σ
  next : σ → Res σ ε ev
  user : σ → ι → Except Panic σ

/-- `Error<E>`, `/repo/src/stream.rs:184-200`. -/
inductive StreamError (ε : Type) where
  | closed
  | io
  /-- only of streams with TLS -/
  | tls
  | state (e : ε)
  deriving DecidableEq, Repr

/-- Where the stream is suspended. -/
inductive StreamCtl where
  /-- no future is pending -/
  | idle
  /-- `next` awaits `read`, `/repo/src/stream.rs:146` -/
  | reading
  /-- `next` awaits `read` or `write`, `/repo/src/stream.rs:152-155` -/
  | racing
  /-- `flush` awaits `write`, `/repo/src/stream.rs:82` -/
  | flushing
  /-- the state panicked -/
  | dead
  deriving DecidableEq, Repr

/-- The stream (`/repo/src/stream.rs:21-26`), the state it drives and where it is suspended. -/
structure StreamConf (σ : Type) where
  readBuffer : Bytes
  writeBuffer : Bytes
  state : σ
  ctl : StreamCtl
  deriving DecidableEq, Repr

/-- `Stream::insecure`, `/repo/src/stream.rs:29-36`. -/
def StreamConf.insecure {σ : Type} (state : σ) : StreamConf σ :=
  { readBuffer := [], writeBuffer := [], state, ctl := .idle }

/-- What the environment does. -/
inductive StreamAct (ι : Type) where
  /-- the owner calls a method of the state -/
  | user (op : ι)
  /-- `next` is called and polled for the first time -/
  | callNext
  /-- `flush` is called and polled for the first time -/
  | callFlush
  /-- the pending read completes with these bytes; none means end of file -/
  | read (bytes : Bytes)
  /-- the pending write accepts the first `n` bytes -/
  | write (n : Nat)
  /-- the pending read or write fails -/
  | fail
  /-- the pending future is dropped -/
  | drop
  deriving DecidableEq, Repr

/-- What happens, in order. -/
inductive StreamItem (ε ev ι : Type) where
  /-- the owner called a method of the state -/
  | user (op : ι)
  /-- `next` was called -/
  | callNext
  /-- `flush` was called -/
  | callFlush
  /-- `state.enqueue_input(bytes)` -/
  | deliver (bytes : Bytes)
  /-- `state.next()` returned -/
  | poll (result : Except (Interrupt ε) ev)
  /-- the socket was read -/
  | read (bytes : Bytes)
  /-- the socket was written -/
  | wrote (bytes : Bytes)
  /-- the socket reported an error -/
  | failed
  /-- `next` returned -/
  | returned (result : Except (StreamError ε) ev)
  /-- `flush` returned -/
  | flushed (result : Except (StreamError Empty) Unit)
  /-- the pending future was dropped -/
  | dropped
  /-- the state panicked -/
  | panicked (p : Panic)
  deriving DecidableEq, Repr

namespace StreamConf

variable {σ ε ev ι : Type}

/-- Provide input bytes to the client/server, `/repo/src/stream.rs:93-96`. -/
def provideInput (M : Machine σ ε ev ι) (c : StreamConf σ) :
    Except Panic (StreamConf σ × List (StreamItem ε ev ι)) :=
  if c.readBuffer.isEmpty then .ok (c, [])
  else
    match M.enqueueInput c.state c.readBuffer with
    | .error p => .error p
    | .ok state => .ok ({ c with state, readBuffer := [] }, [.deliver c.readBuffer])

/-- One iteration of the loop of `next` from its start to the `.await`, `/repo/src/stream.rs:89-156`. -/
def advance (M : Machine σ ε ev ι) (c : StreamConf σ) : StreamConf σ × List (StreamItem ε ev ι) :=
  match provideInput M c with
  | .error p => ({ c with ctl := .dead }, [.panicked p])
  | .ok (c, items) =>
    match M.next c.state with
    | .error p => ({ c with ctl := .dead }, items ++ [.panicked p])
    | .ok (state, result) =>
      let c := { c with state }
      let items := items ++ [.poll result]
      match result with
      | .ok event => ({ c with ctl := .idle }, items ++ [.returned (.ok event)])
      | .error (.error e) => ({ c with ctl := .idle }, items ++ [.returned (.error (.state e))])
      | .error (.io io) =>
        let c :=
          match io with
          | .output bytes => { c with writeBuffer := c.writeBuffer ++ bytes }
          | .needMoreInput => c
        if c.writeBuffer.isEmpty then ({ c with ctl := .reading }, items)
        else ({ c with ctl := .racing }, items)

/-- The pending `read` completes, `/repo/src/stream.rs:202-223`; then the loop of `next` starts again. -/
def completeRead (M : Machine σ ε ev ι) (c : StreamConf σ) (bytes : Bytes) :
    StreamConf σ × List (StreamItem ε ev ι) :=
  let c := { c with readBuffer := c.readBuffer ++ bytes }
  if bytes.length = 0 then
    ({ c with ctl := .idle }, [.read bytes, .returned (.error .closed)])
  else
    let (c, items) := advance M c
    (c, .read bytes :: items)

/-- The pending `write` of the socket completes inside `next`, `/repo/src/stream.rs:225-247`; when the
buffer is empty the loop of `next` starts again. -/
def completeWrite (M : Machine σ ε ev ι) (c : StreamConf σ) (n : Nat) :
    StreamConf σ × List (StreamItem ε ev ι) :=
  let bytes := c.writeBuffer.take n
  let c := { c with writeBuffer := c.writeBuffer.drop n }
  if n = 0 then ({ c with ctl := .idle }, [.wrote bytes, .returned (.error .closed)])
  else if c.writeBuffer.isEmpty then
    let (c, items) := advance M c
    (c, .wrote bytes :: items)
  else (c, [.wrote bytes])

/-- The pending `write` of the socket completes inside `flush`, `/repo/src/stream.rs:82-85`, `225-247`. -/
def completeFlush (c : StreamConf σ) (n : Nat) : StreamConf σ × List (StreamItem ε ev ι) :=
  let bytes := c.writeBuffer.take n
  let c := { c with writeBuffer := c.writeBuffer.drop n }
  if n = 0 then ({ c with ctl := .idle }, [.wrote bytes, .flushed (.error .closed)])
  else if c.writeBuffer.isEmpty then ({ c with ctl := .idle }, [.wrote bytes, .flushed (.ok ())])
  else (c, [.wrote bytes])

/-- One step; `none` if the action is not possible. -/
def step (M : Machine σ ε ev ι) (c : StreamConf σ) :
    StreamAct ι → Option (StreamConf σ × List (StreamItem ε ev ι))
  | .user op =>
    match c.ctl with
    | .idle =>
      match M.user c.state op with
      | .error p => some ({ c with ctl := .dead }, [.user op, .panicked p])
      | .ok state => some ({ c with state }, [.user op])
    | _ => none
  | .callNext =>
    match c.ctl with
    | .idle =>
      let (c, items) := advance M c
      some (c, .callNext :: items)
    | _ => none
  | .callFlush =>
    match c.ctl with
    | .idle =>
      if c.writeBuffer.isEmpty then some (c, [.callFlush, .flushed (.ok ())])
      else some ({ c with ctl := .flushing }, [.callFlush])
    | _ => none
  | .read bytes =>
    match c.ctl with
    | .reading | .racing => some (completeRead M c bytes)
    | _ => none
  | .write n =>
    if n ≤ c.writeBuffer.length then
      match c.ctl with
      | .racing => some (completeWrite M c n)
      | .flushing => some (completeFlush c n)
      | _ => none
    else none
  | .fail =>
    match c.ctl with
    | .reading | .racing => some ({ c with ctl := .idle }, [.failed, .returned (.error .io)])
    | .flushing => some ({ c with ctl := .idle }, [.failed, .flushed (.error .io)])
    | _ => none
  | .drop =>
    match c.ctl with
    | .reading | .racing | .flushing => some ({ c with ctl := .idle }, [.dropped])
    | _ => none

/-- A run; `none` if some action is not possible. -/
def run (M : Machine σ ε ev ι) (c : StreamConf σ) :
    List (StreamAct ι) → Option (StreamConf σ × List (StreamItem ε ev ι))
  | [] => some (c, [])
  | a :: as =>
    match step M c a with
    | none => none
    | some (c, items) =>
      match run M c as with
      | none => none
      | some (c, T) => some (c, items ++ T)

end StreamConf

end ImapFlow
