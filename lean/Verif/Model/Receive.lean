import Verif.Model.Types

/-!
# Receiving messages (`/repo/src/receive.rs`)

The Rust type `ReceiveState<C>` owns a codec `C`; here the decoder is passed to `next`.
-/

namespace ImapFlow

/-- `NextFragment`, `/repo/src/receive.rs:192-202`. -/
inductive NextFragment where
  | line (seenBytesInLine : Nat)
  | literal (length : Nat)
  deriving DecidableEq, Repr

/-- `NextFragment::start_new_line`, `/repo/src/receive.rs:205-209`. -/
def NextFragment.startNewLine : NextFragment := .line 0

/-- `ReceiveState`, `/repo/src/receive.rs:7-19` (without the codec). -/
structure ReceiveState where
  crlfRelaxed : Bool
  maxMessageSize : Option Nat
  nextFragment : NextFragment
  seenBytes : Nat
  readBuffer : Bytes
  deriving DecidableEq, Repr

/-- `ReceiveError`, `/repo/src/receive.rs:184-188`. -/
inductive ReceiveError (ε : Type) where
  | decodingFailure (e : ε)
  | expectedCrlfGotLf
  | messageTooLong
  deriving DecidableEq, Repr

/-- `FindCrlfResult`, `/repo/src/receive.rs:213-218`. -/
structure FindCrlfResult where
  lfPosition : Nat
  expectedCrlfGotLf : Bool
  deriving DecidableEq, Repr

/-- `find_crlf`, `/repo/src/receive.rs:227-234`.  `buf[start..]` panics if `start > buf.len()`.
`buf[lf_position.saturating_sub(1)]` is always in range because `buf[lf_position]` is; `Nat`
subtraction saturates; the default of `getD` is therefore never used. -/
def findCrlf (buf : Bytes) (start : Nat) (crlfRelaxed : Bool) : Except Panic (Option FindCrlfResult) :=
  if start > buf.length then .error .outOfRange
  else
    match (buf.drop start).findIdx? (· == LF) with
    | none => .ok none
    | some i =>
      let lfPosition := start + i
      let expectedCrlfGotLf := !crlfRelaxed && buf.getD (lfPosition - 1) 0 != CR
      .ok (some { lfPosition, expectedCrlfGotLf })

namespace ReceiveState

/-- `ReceiveState::with_read_buffer`, `/repo/src/receive.rs:26-40`. -/
def withReadBuffer (crlfRelaxed : Bool) (maxMessageSize : Option Nat) (readBuffer : Bytes) :
    ReceiveState :=
  { crlfRelaxed, maxMessageSize, nextFragment := .startNewLine, seenBytes := 0, readBuffer }

/-- `ReceiveState::new`, `/repo/src/receive.rs:22-24`. -/
def new (crlfRelaxed : Bool) (maxMessageSize : Option Nat) : ReceiveState :=
  withReadBuffer crlfRelaxed maxMessageSize []

/-- `ReceiveState::enqueue_input`, `/repo/src/receive.rs:42-44`. -/
def enqueueInput (s : ReceiveState) (bytes : Bytes) : ReceiveState :=
  { s with readBuffer := s.readBuffer ++ bytes }

/-- `ReceiveState::start_literal`, `/repo/src/receive.rs:46-49`; the capacity `reserve` has no
observable effect and is not modelled. -/
def startLiteral (s : ReceiveState) (length : Nat) : ReceiveState :=
  { s with nextFragment := .literal length }

/-- `ReceiveState::finish_message`, `/repo/src/receive.rs:51-55`; `advance` panics past the end. -/
def finishMessage (s : ReceiveState) : Except Panic ReceiveState :=
  if s.seenBytes > s.readBuffer.length then .error .outOfRange
  else .ok { s with readBuffer := s.readBuffer.drop s.seenBytes, seenBytes := 0,
                    nextFragment := .startNewLine }

/-- `ReceiveState::discard_message`, `/repo/src/receive.rs:57-61`; the slice panics past the end. -/
def discardMessage (s : ReceiveState) : Except Panic (ReceiveState × Bytes) :=
  if s.seenBytes > s.readBuffer.length then .error .outOfRange
  else
    let discardedBytes := s.readBuffer.take s.seenBytes
    match s.finishMessage with
    | .error p => .error p
    | .ok s => .ok (s, discardedBytes)

/-- `ReceiveState::max_readable_bytes`, `/repo/src/receive.rs:164-168`. -/
def maxReadableBytes (s : ReceiveState) : Nat :=
  match s.maxMessageSize with
  | none => s.readBuffer.length
  | some size => min s.readBuffer.length size

/-- `ReceiveState::progress_line`, `/repo/src/receive.rs:81-134`.  The slice
`read_buffer[seen_bytes..max_readable_bytes]` panics if `seen_bytes > max_readable_bytes`
(`max_readable_bytes ≤ len` always holds).  `read_buffer.len() - seen_bytes` cannot underflow
after that check. -/
def progressLine {ε μ : Type} (dec : Decoder ε μ) (s : ReceiveState) (seenBytesInLine : Nat) :
    Res ReceiveState (ReceiveError ε) μ :=
  let maxReadable := s.maxReadableBytes
  if s.seenBytes > maxReadable then .error .outOfRange
  else
    match findCrlf ((s.readBuffer.take maxReadable).drop s.seenBytes) seenBytesInLine s.crlfRelaxed with
    | .error p => .error p
    | .ok none =>
      -- No full line received yet, more data needed.
      let s := { s with nextFragment := .line (s.readBuffer.length - s.seenBytes) }
      if some maxReadable = s.maxMessageSize then
        .ok ({ s with seenBytes := maxReadable }, .error (.error .messageTooLong))
      else
        .ok (s, .error (.io .needMoreInput))
    | .ok (some crlfResult) =>
      let s := { s with seenBytes := s.seenBytes + (crlfResult.lfPosition + 1),
                        nextFragment := .startNewLine }
      if crlfResult.expectedCrlfGotLf then
        .ok (s, .error (.error .expectedCrlfGotLf))
      else
        match dec (s.readBuffer.take s.seenBytes) with
        | .ok (remaining, message) =>
          if remaining.isEmpty then .ok (s, .ok message) else .error .assertFailed
        | .error e => .ok (s, .error (.error (.decodingFailure e)))

/-- `ReceiveState::progress_literal`, `/repo/src/receive.rs:136-162`. -/
def progressLiteral (ε : Type) (s : ReceiveState) (literalLength : Nat) :
    Res ReceiveState (ReceiveError ε) Unit :=
  let maxReadable := s.maxReadableBytes
  if s.seenBytes > maxReadable then .error .outOfRange
  else
    let unseenBytes := maxReadable - s.seenBytes
    if unseenBytes < literalLength then
      if some maxReadable = s.maxMessageSize then
        .ok ({ s with seenBytes := maxReadable }, .error (.error .messageTooLong))
      else
        .ok (s, .error (.io .needMoreInput))
    else
      .ok ({ s with nextFragment := .startNewLine, seenBytes := s.seenBytes + literalLength }, .ok ())

/-- `ReceiveState::next`, `/repo/src/receive.rs:63-79`.  The `loop` re-reads `next_fragment`; after a
successful `progress_literal` it is a new line (`/repo/src/receive.rs:157`), so the loop body runs at
most twice and is unrolled here. -/
def next {ε μ : Type} (dec : Decoder ε μ) (s : ReceiveState) : Res ReceiveState (ReceiveError ε) μ :=
  match s.nextFragment with
  | .line seenBytesInLine => progressLine dec s seenBytesInLine
  | .literal length =>
    match progressLiteral ε s length with
    | .error p => .error p
    | .ok (s, .error i) => .ok (s, .error i)
    | .ok (s, .ok ()) => progressLine dec s 0

/-- `ReceiveState::change_codec`, `/repo/src/receive.rs:170-177`. -/
def changeCodec (s : ReceiveState) : ReceiveState :=
  withReadBuffer s.crlfRelaxed s.maxMessageSize s.readBuffer

end ReceiveState

end ImapFlow
