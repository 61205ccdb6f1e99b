import Verif.Model.Types

/-!
# Model of `decrypt` and `encrypt`, `/repo/src/stream.rs:266-311`

`rustls` is an external crate (`/repo/Cargo.toml:25`, version 0.23) that is not part of `/repo`.  `Tls` is a
model of the part of `rustls::Connection` that `/repo` uses after the handshake.  It is an assumption about
the documented behaviour of `rustls` 0.23, which could not be compared with its source here:

* `Reader::read` returns received plaintext; if there is none it returns `Ok(0)` when the peer closed the
  connection by a `close_notify` alert, and `WouldBlock` otherwise;
* `wants_read` is true if there is no received plaintext and no `close_notify` was received;
* `read_tls` takes some bytes (at most `readSize`), `process_new_packets` opens all complete records;
  everything behind a `close_notify` is ignored;
* `Writer::write` accepts as many bytes as fit into the buffer limit (`set_buffer_limit`, 64 KiB by default);
  `write_tls` writes one record;
* `Writer::flush` does nothing.

The cryptography is abstract: a `RecordLayer` says how records are sealed and opened.  Records that carry no
application data (such as session tickets) are `other`; responses of `rustls` to such records are not
modelled.
-/

namespace ImapFlow

/-- The content of a record. -/
inductive RecordContent where
  | data (bytes : Bytes)
  | closeNotify
  | other
  deriving DecidableEq, Repr

/-- The result of opening the first record. -/
inductive Opened (K : Type) where
  /-- more bytes are needed -/
  | incomplete
  /-- the record is broken -/
  | invalid
  /-- the first `length` bytes are a record -/
  | record (key : K) (length : Nat) (content : RecordContent)
  deriving DecidableEq, Repr

/-- Sealing and opening of records; `K` are the keys and sequence numbers of one direction. -/
structure RecordLayer (K : Type) where
  /-- open the first record of some bytes -/
  unprotect : K → Bytes → Opened K
  /-- records with the given plaintext -/
  protect : K → Bytes → K × List Bytes

/-- `rustls::Connection` after the handshake. -/
structure Tls (K : Type) where
  layer : RecordLayer K
  /-- the number of bytes `read_tls` takes at most -/
  readSize : Nat
  /-- the buffer limit -/
  limit : Nat
  readKey : K
  /-- bytes taken by `read_tls` that are not a complete record yet -/
  raw : Bytes
  /-- received plaintext -/
  plain : Bytes
  /-- `close_notify` was received -/
  closed : Bool
  writeKey : K
  /-- records to be written -/
  sendable : List Bytes

namespace Tls

variable {K : Type}

/-- `Connection::wants_read`. -/
def wantsRead (t : Tls K) : Bool := t.plain.isEmpty && !t.closed

/-- `Connection::read_tls`: the new connection and the number of bytes taken. -/
def readTls (t : Tls K) (input : Bytes) : Tls K × Nat :=
  let n := min t.readSize input.length
  ({ t with raw := t.raw ++ input.take n }, n)

/-- Open all complete records: the key, the unopened bytes, the plaintext and whether the connection was
closed; `none` if a record is broken. -/
def openAll (R : RecordLayer K) (key : K) (raw : Bytes) : Option (K × Bytes × Bytes × Bool) :=
  match R.unprotect key raw with
  | .incomplete => some (key, raw, [], false)
  | .invalid => none
  | .record key' length content =>
    if _h : 0 < length ∧ length ≤ raw.length then
      match content with
      | .closeNotify => some (key', [], [], true)
      | .data bytes =>
        match openAll R key' (raw.drop length) with
        | none => none
        | some (k, rest, plain, closed) => some (k, rest, bytes ++ plain, closed)
      | .other => openAll R key' (raw.drop length)
    else none
termination_by raw.length
decreasing_by
  all_goals
    simp only [List.length_drop]
    omega

/-- `Connection::process_new_packets`. -/
def processNewPackets (t : Tls K) : Option (Tls K) :=
  match openAll t.layer t.readKey t.raw with
  | none => none
  | some (readKey, raw, plain, closed) =>
    some { t with readKey, raw, plain := t.plain ++ plain, closed := t.closed || closed }

/-- `Reader::read` with a buffer of `n` bytes; `none` is `WouldBlock`. -/
def read (t : Tls K) (n : Nat) : Tls K × Option Bytes :=
  if t.plain.isEmpty then
    if t.closed then (t, some []) else (t, none)
  else ({ t with plain := t.plain.drop n }, some (t.plain.take n))

/-- The space that is left in the buffer. -/
def space (t : Tls K) : Nat := t.limit - t.sendable.flatten.length

/-- `Writer::write`: the new connection and the number of bytes accepted. -/
def write (t : Tls K) (bytes : Bytes) : Tls K × Nat :=
  let n := min bytes.length t.space
  if n = 0 then (t, 0)
  else
    let (writeKey, records) := t.layer.protect t.writeKey (bytes.take n)
    ({ t with writeKey, sendable := t.sendable ++ records }, n)

/-- `Connection::wants_write`. -/
def wantsWrite (t : Tls K) : Bool := !t.sendable.isEmpty

/-- `Connection::write_tls`: the new connection and the bytes written. -/
def writeTls (t : Tls K) : Tls K × Bytes :=
  match t.sendable with
  | [] => (t, [])
  | r :: rs => ({ t with sendable := rs }, r)

end Tls

/-- `DecryptEncryptError`, `/repo/src/stream.rs:313-319`. -/
inductive TlsError where
  | io
  | tls
  deriving DecidableEq, Repr

/-- Where `decrypt` is: at the head of its outer loop, at the head of its inner loop, or finished. -/
inductive DecryptState (K : Type) where
  | outer (tls : Tls K) (readBuffer plain : Bytes)
  | inner (tls : Tls K) (readBuffer plain : Bytes)
  | done (result : Except TlsError (Tls K × Bytes × Bytes))

namespace DecryptState

variable {K : Type}

/-- The size of `plain_bytes_chunk`, `/repo/src/stream.rs:278`. -/
def chunkSize : Nat := 128

/-- One iteration of the innermost loop, `/repo/src/stream.rs:272-291`. -/
def step : DecryptState K → DecryptState K
  | outer tls readBuffer plain =>
    if tls.wantsRead && !readBuffer.isEmpty then
      let (tls, n) := tls.readTls readBuffer
      match tls.processNewPackets with
      | none => done (.error .tls)
      | some tls => inner tls (readBuffer.drop n) plain
    else done (.ok (tls, readBuffer, plain))
  | inner tls readBuffer plain =>
    match tls.read chunkSize with
    | (tls, none) => outer tls readBuffer plain
    | (tls, some bytes) => inner tls readBuffer (plain ++ bytes)
  | done result => done result

/-- Several iterations. -/
def steps : Nat → DecryptState K → DecryptState K
  | 0, s => s
  | n + 1, s => steps n s.step

/-- `decrypt(tls, read_buffer)` ends with a result. -/
def Ends (s : DecryptState K) (result : Except TlsError (Tls K × Bytes × Bytes)) : Prop :=
  ∃ n, s.steps n = done result

/-- `decrypt(tls, read_buffer)`. -/
def start (tls : Tls K) (readBuffer : Bytes) : DecryptState K := outer tls readBuffer []

end DecryptState

namespace Tls

variable {K : Type}

/-- `std::io::Write::write_all`, called in `/repo/src/stream.rs:302`: fails when nothing is accepted.  The
bytes accepted before stay in the connection. -/
def writeAll (t : Tls K) (bytes : Bytes) : Tls K × Except TlsError Unit :=
  match bytes with
  | [] => (t, .ok ())
  | b :: bs =>
    match t.write (b :: bs) with
    | (t, 0) => (t, .error .io)
    | (t, n + 1) => writeAll t (bs.drop n)
termination_by bytes.length
decreasing_by
  simp only [List.length_drop, List.length_cons]
  omega

/-- `while tls.wants_write() { tls.write_tls(..) }`, `/repo/src/stream.rs:305-308`: the connection and the
bytes written. -/
def drainWrites (t : Tls K) : Tls K × Bytes :=
  if _h : t.wantsWrite then
    let (t', bytes) := drainWrites t.writeTls.1
    (t', t.writeTls.2 ++ bytes)
  else (t, [])
termination_by t.sendable.length
decreasing_by
  unfold wantsWrite at _h
  unfold writeTls
  split
  · rename_i h; simp [h] at _h
  · rename_i h; simp [h]

/-- `encrypt`, `/repo/src/stream.rs:296-311`: the connection, the new write buffer and the result. -/
def encrypt (t : Tls K) (writeBuffer plain : Bytes) : Tls K × Bytes × Except TlsError Unit :=
  match (if plain.isEmpty then (t, .ok ()) else t.writeAll plain) with
  | (t, .error e) => (t, writeBuffer, .error e)
  | (t, .ok ()) =>
    let (t, bytes) := t.drainWrites
    (t, writeBuffer ++ bytes, .ok ())

end Tls

end ImapFlow
