import Verif.Model.Stream
import Verif.Model.Tls

/-!
# Model of the whole `Stream`, with and without TLS, `/repo/src/stream.rs`

Like `Model/Stream.lean` (which is the special case without TLS, see `Proofs/FullStream.lean`), but with the
field `tls`.  The assumptions about tokio are those of `Model/Stream.lean`, the assumptions about `rustls` are
those of `Model/Tls.lean`.

After `decrypt` has failed, `rustls` should not be given more input; what it does then is not modelled: the
stream is `broken` and nothing more happens.  After `encrypt` has failed, the stream can be used on.
-/

namespace ImapFlow

/-- The result of `decrypt`. -/
inductive Decrypted (K : Type) where
  /-- `decrypt` does not end -/
  | hang
  /-- `decrypt` fails -/
  | broken
  /-- the connection, the rest of the read buffer and the plaintext -/
  | ok (tls : Tls K) (readBuffer plain : Bytes)

/-- `decrypt`, `/repo/src/stream.rs:266-294`, as a function: the result of the loops of `DecryptState` that
have already collected `plain`.  That it is the result is proved in `Proofs/FullStream.lean`
(`decrypt_hang`, `decrypt_broken`, `decrypt_ok`). -/
def Tls.decrypt {K : Type} (tls : Tls K) (readBuffer plain : Bytes) : Decrypted K :=
  if tls.wantsRead && !readBuffer.isEmpty then
    if _h : 0 < (tls.readTls readBuffer).2 ∧ 0 < readBuffer.length then
      match (tls.readTls readBuffer).1.processNewPackets with
      | none => .broken
      | some t =>
        -- the inner loop takes all plaintext; it does not end if the connection is closed
        if t.closed then .hang
        else Tls.decrypt { t with plain := [] } (readBuffer.drop (tls.readTls readBuffer).2) (plain ++ t.plain)
    else .hang
  else .ok tls readBuffer plain
termination_by readBuffer.length
decreasing_by
  simp only [List.length_drop]
  omega

/-- Where the stream is suspended. -/
inductive FullCtl where
  /-- as without TLS -/
  | at (ctl : StreamCtl)
  /-- in `decrypt`, forever -/
  | hung
  /-- `decrypt` has failed -/
  | broken
  deriving DecidableEq, Repr

/-- The stream (`/repo/src/stream.rs:21-26`), the state it drives and where it is suspended. -/
structure FullStream (K σ : Type) where
  tls : Option (Tls K)
  readBuffer : Bytes
  writeBuffer : Bytes
  state : σ
  ctl : FullCtl

/-- What happens, in order. -/
inductive FullItem (ε ev ι : Type) where
  /-- as without TLS; `deliver`, `poll` show plaintext, `read` and `wrote` show what is on the socket -/
  | stream (item : StreamItem ε ev ι)
  /-- `encrypt` failed, `next` returns `Error::Io` -/
  | refused
  /-- `decrypt` failed, `next` returns `Error::Tls` -/
  | broken
  /-- `decrypt` does not end -/
  | hung
  deriving DecidableEq, Repr

namespace FullStream

variable {K σ ε ev ι : Type}

/-- `Stream::insecure`, `/repo/src/stream.rs:29-36`. -/
def insecure (state : σ) : FullStream K σ :=
  { tls := none, readBuffer := [], writeBuffer := [], state, ctl := .at .idle }

/-- `Stream::tls`, `/repo/src/stream.rs:38-72`. -/
def secure (tls : Tls K) (state : σ) : FullStream K σ :=
  { tls := some tls, readBuffer := [], writeBuffer := [], state, ctl := .at .idle }

/-- `state.enqueue_input(bytes)` unless there are no bytes. -/
def deliver (M : Machine σ ε ev ι) (c : FullStream K σ) (bytes : Bytes) :
    Except (FullStream K σ × List (FullItem ε ev ι)) (FullStream K σ × List (FullItem ε ev ι)) :=
  if bytes.isEmpty then .ok (c, [])
  else
    match M.enqueueInput c.state bytes with
    | .error p => .error ({ c with ctl := .at .dead }, [.stream (.panicked p)])
    | .ok state => .ok ({ c with state }, [.stream (.deliver bytes)])

/-- Decrypt input bytes and provide them to the client/server, `/repo/src/stream.rs:90-107`; an error is a
stream on which `next` does not continue. -/
def provideInput (M : Machine σ ε ev ι) (c : FullStream K σ) :
    Except (FullStream K σ × List (FullItem ε ev ι)) (FullStream K σ × List (FullItem ε ev ι)) :=
  match c.tls with
  | none =>
    match c.deliver M c.readBuffer with
    | .error x => .error x
    | .ok (c, items) => .ok ({ c with readBuffer := [] }, items)
  | some tls =>
    match tls.decrypt c.readBuffer [] with
    | .hang => .error ({ c with ctl := .hung }, [.hung])
    | .broken => .error ({ c with ctl := .broken }, [.broken])
    | .ok tls readBuffer plain => { c with tls := some tls, readBuffer }.deliver M plain

/-- Handle the output bytes from the client/server, `/repo/src/stream.rs:124-143`, `bytes` is empty for
`Io::NeedMoreInput`; `false` if `encrypt` failed. -/
def handleOutput (c : FullStream K σ) (bytes : Bytes) : FullStream K σ × Bool :=
  match c.tls with
  | none => ({ c with writeBuffer := c.writeBuffer ++ bytes }, true)
  | some tls =>
    match tls.encrypt c.writeBuffer bytes with
    | (tls, writeBuffer, .ok ()) => ({ c with tls := some tls, writeBuffer }, true)
    | (tls, writeBuffer, .error _) => ({ c with tls := some tls, writeBuffer }, false)

/-- The bytes of `Io::Output`. -/
def outputBytes : Io → Bytes
  | .output bytes => bytes
  | .needMoreInput => []

/-- One iteration of the loop of `next` from its start to the `.await`, `/repo/src/stream.rs:89-156`. -/
def advance (M : Machine σ ε ev ι) (c : FullStream K σ) : FullStream K σ × List (FullItem ε ev ι) :=
  match c.provideInput M with
  | .error x => x
  | .ok (c, items) =>
    match M.next c.state with
    | .error p => ({ c with ctl := .at .dead }, items ++ [.stream (.panicked p)])
    | .ok (state, result) =>
      let c := { c with state }
      let items := items ++ [.stream (.poll result)]
      match result with
      | .ok event => ({ c with ctl := .at .idle }, items ++ [.stream (.returned (.ok event))])
      | .error (.error e) => ({ c with ctl := .at .idle }, items ++ [.stream (.returned (.error (.state e)))])
      | .error (.io io) =>
        match c.handleOutput (outputBytes io) with
        | (c, false) => ({ c with ctl := .at .idle }, items ++ [.refused, .stream (.returned (.error .io))])
        | (c, true) =>
          if c.writeBuffer.isEmpty then ({ c with ctl := .at .reading }, items)
          else ({ c with ctl := .at .racing }, items)

/-- The pending `read` completes, `/repo/src/stream.rs:202-223`; then the loop of `next` starts again. -/
def completeRead (M : Machine σ ε ev ι) (c : FullStream K σ) (bytes : Bytes) :
    FullStream K σ × List (FullItem ε ev ι) :=
  let c := { c with readBuffer := c.readBuffer ++ bytes }
  if bytes.length = 0 then
    ({ c with ctl := .at .idle }, [.stream (.read bytes), .stream (.returned (.error .closed))])
  else
    let (c, items) := advance M c
    (c, .stream (.read bytes) :: items)

/-- The pending `write` of the socket completes inside `next`, `/repo/src/stream.rs:225-247`; when the
buffer is empty the loop of `next` starts again. -/
def completeWrite (M : Machine σ ε ev ι) (c : FullStream K σ) (n : Nat) :
    FullStream K σ × List (FullItem ε ev ι) :=
  let bytes := c.writeBuffer.take n
  let c := { c with writeBuffer := c.writeBuffer.drop n }
  if n = 0 then ({ c with ctl := .at .idle }, [.stream (.wrote bytes), .stream (.returned (.error .closed))])
  else if c.writeBuffer.isEmpty then
    let (c, items) := advance M c
    (c, .stream (.wrote bytes) :: items)
  else (c, [.stream (.wrote bytes)])

/-- `flush` up to its first `.await`, `/repo/src/stream.rs:74-85`.  `encrypt` of nothing does not fail. -/
def startFlush (c : FullStream K σ) : FullStream K σ × List (FullItem ε ev ι) :=
  let c := (c.handleOutput []).1
  if c.writeBuffer.isEmpty then (c, [.stream .callFlush, .stream (.flushed (.ok ()))])
  else ({ c with ctl := .at .flushing }, [.stream .callFlush])

/-- The pending `write` of the socket completes inside `flush`, `/repo/src/stream.rs:82-85`, `225-247`. -/
def completeFlush (c : FullStream K σ) (n : Nat) : FullStream K σ × List (FullItem ε ev ι) :=
  let bytes := c.writeBuffer.take n
  let c := { c with writeBuffer := c.writeBuffer.drop n }
  if n = 0 then ({ c with ctl := .at .idle }, [.stream (.wrote bytes), .stream (.flushed (.error .closed))])
  else if c.writeBuffer.isEmpty then
    ({ c with ctl := .at .idle }, [.stream (.wrote bytes), .stream (.flushed (.ok ()))])
  else (c, [.stream (.wrote bytes)])

/-- One step; `none` if the action is not possible. -/
def step (M : Machine σ ε ev ι) (c : FullStream K σ) :
    StreamAct ι → Option (FullStream K σ × List (FullItem ε ev ι))
  | .user op =>
    match c.ctl with
    | .at .idle =>
      match M.user c.state op with
      | .error p => some ({ c with ctl := .at .dead }, [.stream (.user op), .stream (.panicked p)])
      | .ok state => some ({ c with state }, [.stream (.user op)])
    | _ => none
  | .callNext =>
    match c.ctl with
    | .at .idle =>
      let (c, items) := advance M c
      some (c, .stream .callNext :: items)
    | _ => none
  | .callFlush =>
    match c.ctl with
    | .at .idle => some c.startFlush
    | _ => none
  | .read bytes =>
    match c.ctl with
    | .at .reading | .at .racing => some (completeRead M c bytes)
    | _ => none
  | .write n =>
    if n ≤ c.writeBuffer.length then
      match c.ctl with
      | .at .racing => some (completeWrite M c n)
      | .at .flushing => some (completeFlush c n)
      | _ => none
    else none
  | .fail =>
    match c.ctl with
    | .at .reading | .at .racing =>
      some ({ c with ctl := .at .idle }, [.stream .failed, .stream (.returned (.error .io))])
    | .at .flushing => some ({ c with ctl := .at .idle }, [.stream .failed, .stream (.flushed (.error .io))])
    | _ => none
  | .drop =>
    match c.ctl with
    | .at .reading | .at .racing | .at .flushing => some ({ c with ctl := .at .idle }, [.stream .dropped])
    | _ => none

/-- A run; `none` if some action is not possible. -/
def run (M : Machine σ ε ev ι) (c : FullStream K σ) :
    List (StreamAct ι) → Option (FullStream K σ × List (FullItem ε ev ι))
  | [] => some (c, [])
  | a :: as =>
    match step M c a with
    | none => none
    | some (c, items) =>
      match run M c as with
      | none => none
      | some (c, T) => some (c, items ++ T)

end FullStream

end ImapFlow
