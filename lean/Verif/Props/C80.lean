import Verif.Proofs.ClientHeldTls
import Verif.Proofs.Grows
import Verif.Spec.ClientSamples
import Verif.Spec.Imap

/-!
# C80: a server cannot make a stream with a client hold arbitrarily many bytes

False of the code: a client has no limit for the size of a message, so a server that never ends a line is listened to forever
(`C80_line`).  True of the code: between messages nothing is held; while the stream waits for input, the client holds only the message
that is being received (`C80_partial`), and whatever a server sends, the client never has more to send than its user asked for
(`C80_output`, `C80_written`, `C80_tls_written`).
-/

namespace ImapFlow

open ClientSample (str ln)

namespace ClientHeldSample

/-- A client before the greeting, after it has looked at the first `k` bytes of `b`. -/
def holding (g : HandleGenerator) (o : ClientOptions) (k : Nat) (b : Bytes) : Client :=
  { handleGenerator := g
    sendState := { queuedMessages := [], currentMessage := none }
    receiveState := .greeting
      { crlfRelaxed := o.crlfRelaxed, maxMessageSize := none, nextFragment := .line k, seenBytes := 0, readBuffer := b } }

theorem holding_next (L : Lib) (g : HandleGenerator) (o : ClientOptions) {k : Nat} {b : Bytes} (hk : k ≤ b.length) (hb : LF ∉ b) :
    (holding g o k b).next L = .ok (holding g o b.length b, .error (.io .needMoreInput)) := by
  have hf : (b.drop k).findIdx? (· == LF) = none := by
    rw [List.findIdx?_eq_none_iff]
    intro x hx
    have := List.mem_of_mem_drop hx
    simp only [beq_eq_false_iff_ne, ne_eq]
    rintro rfl
    exact hb this
  have hr : receiveGreeting L { crlfRelaxed := o.crlfRelaxed, maxMessageSize := none, nextFragment := .line k, seenBytes := 0, readBuffer := b } =
      .ok ({ crlfRelaxed := o.crlfRelaxed, maxMessageSize := none, nextFragment := .line b.length, seenBytes := 0, readBuffer := b },
        .error (.io .needMoreInput)) := by
    simp [receiveGreeting, ReceiveState.next, ReceiveState.progressLine, ReceiveState.maxReadableBytes, findCrlf, hf, Nat.not_lt.2 hk]
  rw [Client.next_eq]
  simp only [holding, Client.progressSend, Client.progressReceive, hr]

theorem holding_read (K : Type) (L : Lib) (g : HandleGenerator) (o : ClientOptions) {k : Nat} {b b' : Bytes} (hk : k ≤ b.length)
    (hb : LF ∉ b) (hb' : LF ∉ b') (h : b' ≠ []) :
    FullStream.step (K := K) (clientMachine L) ⟨none, [], [], holding g o k b, .at .reading⟩ (.read b') =
      some (⟨none, [], [], holding g o (b ++ b').length (b ++ b'), .at .reading⟩,
        [.stream (.read b'), .stream (.deliver b'), .stream (.poll (.error (.io .needMoreInput)))]) := by
  have hn := holding_next L g o (k := k) (b := b ++ b') (by simp; omega) (by simp [hb, hb'])
  have he : b'.isEmpty = false := by simpa using h
  have hl : ¬ b'.length = 0 := by simpa using h
  simp only [FullStream.step, FullStream.completeRead, FullStream.advance, FullStream.provideInput, FullStream.deliver, clientMachine,
    List.nil_append, he, hl, if_false, Bool.false_eq_true]
  rw [show (holding g o k b).enqueueInput b' = .ok (holding g o k (b ++ b')) from rfl]
  dsimp only
  rw [hn]
  rfl

theorem holding_reads (K : Type) (L : Lib) (g : HandleGenerator) (o : ClientOptions) (bs : List Bytes) :
    ∀ {k : Nat} {b : Bytes}, k ≤ b.length → LF ∉ b → (∀ x ∈ bs, x ≠ [] ∧ LF ∉ x) →
    ∃ c T, FullStream.run (K := K) (clientMachine L) ⟨none, [], [], holding g o k b, .at .reading⟩ (bs.map .read) = some (c, T) ∧
      c.ctl = .at .reading ∧ c.state.buffer = b ++ bs.flatten ∧ ∀ r, .stream (.returned r) ∉ T := by
  induction bs with
  | nil => exact fun _ _ _ => ⟨_, _, rfl, rfl, by simp [Client.buffer, holding], by simp⟩
  | cons x bs ih =>
    intro k b hk hb hx
    obtain ⟨h1, h2⟩ := hx x List.mem_cons_self
    obtain ⟨c, T, i1, i2, i3, i4⟩ := ih (k := (b ++ x).length) (b := b ++ x) (Nat.le_refl _) (by simp [hb, h2])
      fun y hy => hx y (List.mem_cons_of_mem _ hy)
    refine ⟨c, [.stream (.read x), .stream (.deliver x), .stream (.poll (.error (.io .needMoreInput)))] ++ T, ?_, i2, ?_, ?_⟩
    · simp only [List.map_cons, FullStream.run, holding_read K L g o hk hb h2 h1]
      rw [i1]
    · rw [i3]; simp
    · intro r hm
      simp only [List.mem_append, List.mem_cons, List.not_mem_nil, or_false, reduceCtorEq, FullItem.stream.injEq, false_or] at hm
      exact i4 r hm

end ClientHeldSample

/-- Whatever the server sends without ending a line is held: `next` of a stream with a client goes on to read. -/
theorem C80_line {K : Type} (L : Lib) (g : HandleGenerator) (o : ClientOptions) {bs : List Bytes}
    (hb : ∀ b ∈ bs, b ≠ [] ∧ LF ∉ b) :
    ∃ (c : FullStream K Client) (T : List (FullItem ClientError ClientEvent ClientOp)),
      FullStream.run (clientMachine L) (.insecure (Client.new g o)) (.callNext :: bs.map .read) = some (c, T) ∧
      c.ctl = .at .reading ∧ c.state.buffer = bs.flatten ∧ ∀ r, .stream (.returned r) ∉ T := by
  have hn := ClientHeldSample.holding_next L g o (k := 0) (b := []) (Nat.le_refl _) (by simp)
  have h0 : FullStream.step (K := K) (clientMachine L) (.insecure (Client.new g o)) .callNext =
      some (⟨none, [], [], ClientHeldSample.holding g o 0 [], .at .reading⟩,
        [.stream .callNext, .stream (.poll (.error (.io .needMoreInput)))]) := by
    simp only [FullStream.step, FullStream.insecure, FullStream.advance, FullStream.provideInput, FullStream.deliver, clientMachine,
      List.isEmpty_nil, if_true]
    rw [show Client.new g o = ClientHeldSample.holding g o 0 [] from rfl, hn]
    rfl
  obtain ⟨c, T, i1, i2, i3, i4⟩ := ClientHeldSample.holding_reads K L g o bs (k := 0) (b := []) (Nat.le_refl _) (by simp) hb
  refine ⟨c, [.stream .callNext, .stream (.poll (.error (.io .needMoreInput)))] ++ T, ?_, i2, by simpa using i3, ?_⟩
  · simp only [FullStream.run, h0, i1]
  · intro r hm
    simp only [List.mem_append, List.mem_cons, List.not_mem_nil, or_false, reduceCtorEq, FullItem.stream.injEq, false_or] at hm
    exact i4 r hm

/-- So no bound holds for any codec. -/
theorem C80_unbounded (L : Lib) (g : HandleGenerator) (o : ClientOptions) (N : Nat) :
    ∃ (as : List (StreamAct ClientOp)) (c : FullStream Nat Client) (T : List (FullItem ClientError ClientEvent ClientOp)),
      FullStream.run (clientMachine L) (.insecure (Client.new g o)) as = some (c, T) ∧ (∀ b, .read b ∈ as → b.length ≤ 1) ∧
      (∀ op, .user op ∉ as) ∧ (∀ r, .stream (.returned r) ∉ T) ∧ N ≤ c.state.buffer.length := by
  obtain ⟨c, T, h1, -, h3, h4⟩ := C80_line (K := Nat) L g o (bs := List.replicate N [42]) (by
    intro b hb
    rw [List.mem_replicate] at hb
    obtain ⟨-, rfl⟩ := hb
    decide)
  refine ⟨_, c, T, h1, ?_, ?_, h4, ?_⟩
  · intro b hb
    simp only [List.map_replicate, List.mem_cons, reduceCtorEq, List.mem_replicate, StreamAct.read.injEq, false_or] at hb
    rw [hb.2]
    decide
  · intro op hm
    simp [List.map_replicate, List.mem_replicate] at hm
  · rw [h3]
    simp

/-- While a stream without TLS only waits for input, nothing waits to be written, all bytes that were read have been given to the client,
and the client holds only the beginning of one message: a greeting if none was reported, else a response.

Partial: the length of this message is not bounded (`C80_line`).  For streams with TLS see `C80_tls_partial`. -/
theorem C80_partial {K : Type} {L : Lib} (hL : L.Lawful) {g : HandleGenerator} {o : ClientOptions} {as : List (StreamAct ClientOp)}
    {c : FullStream K Client} {T : List (FullItem ClientError ClientEvent ClientOp)}
    (h : FullStream.run (clientMachine L) (.insecure (Client.new g o)) as = some (c, T)) (hc : c.ctl = .at .reading)
    (ha : .user .next ∉ as ∧ ∀ b, .user (.enqueueInput b) ∉ as) :
    c.readBuffer = [] ∧ c.writeBuffer = [] ∧
    ((∃ gr, .greetingReceived gr ∈ events (streamPart T)) → IsUnfinished (responseFraming L o.crlfRelaxed) c.state.buffer) ∧
    ((¬ ∃ gr, .greetingReceived gr ∈ events (streamPart T)) → IsUnfinished (greetingFraming L o.crlfRelaxed) c.state.buffer) :=
  client_waiting hL h hc ⟨fun hm => ha.1 (FullStream.run_user h hm), fun b hm => ha.2 b (FullStream.run_user h hm)⟩

/-- The same with or without TLS.  The TLS connection holds no plaintext, and less than a record; `r` is the maximal size of a record.

Partial: the length of the message is not bounded (`C80_line`). -/
theorem C80_tls_partial {K : Type} {L : Lib} (hL : L.Lawful) {g : HandleGenerator} {o : ClientOptions} {r : Nat}
    {tls : Option (Tls K)} (ht : ∀ t, tls = some t → t.layer.Sized r ∧ t.Ready) {as : List (StreamAct ClientOp)}
    {c : FullStream K Client} {T : List (FullItem ClientError ClientEvent ClientOp)}
    (h : FullStream.run (clientMachine L) (.new tls (Client.new g o)) as = some (c, T)) (hc : c.ctl = .at .reading)
    (ha : .user .next ∉ as ∧ ∀ b, .user (.enqueueInput b) ∉ as) :
    c.readBuffer = [] ∧ c.writeBuffer = [] ∧ (∀ t, c.tls = some t → t.plain = [] ∧ t.raw.length < r) ∧
    ((∃ gr, .greetingReceived gr ∈ events (streamPart T)) → IsUnfinished (responseFraming L o.crlfRelaxed) c.state.buffer) ∧
    ((¬ ∃ gr, .greetingReceived gr ∈ events (streamPart T)) → IsUnfinished (greetingFraming L o.crlfRelaxed) c.state.buffer) :=
  client_waiting_tls hL ht h hc ⟨fun hm => ha.1 (FullStream.run_user h hm), fun b hm => ha.2 b (FullStream.run_user h hm)⟩

/-- Whatever the server sends, the client does not hand out more bytes than those of the commands, the authenticate data and the DONEs
that its user asked to be sent; with or without TLS. -/
theorem C80_output {K : Type} {L : Lib} {g : HandleGenerator} {o : ClientOptions} {tls : Option (Tls K)}
    {as : List (StreamAct ClientOp)} {c : FullStream K Client} {T : List (FullItem ClientError ClientEvent ClientOp)}
    (h : FullStream.run (clientMachine L) ⟨tls, [], [], Client.new g o, .at .idle⟩ as = some (c, T)) :
    (streamOutput (streamPart T)).length ≤ wanted L (streamPart T) :=
  FullStream.run_wanted h

/-- So what was written and what waits to be written is bounded by that. -/
theorem C80_written {K : Type} {L : Lib} {g : HandleGenerator} {o : ClientOptions}
    {as : List (StreamAct ClientOp)} {c : FullStream K Client} {T : List (FullItem ClientError ClientEvent ClientOp)}
    (h : FullStream.run (clientMachine L) (.insecure (Client.new g o)) as = some (c, T)) :
    (streamWrote (streamPart T)).length + c.writeBuffer.length ≤ wanted L (streamPart T) := by
  have h1 := C80_output (tls := none) h
  rw [← FullStream.run_wrote h, List.length_append] at h1
  exact h1

/-- With or without TLS: what was written, what waits to be written and what waits in the TLS connection is bounded by that and the
growth of records; also after `encrypt` has failed. -/
theorem C80_tls_written {K : Type} {L : Lib} {g : HandleGenerator} {o : ClientOptions} {f : Nat} (hf : 0 < f) {tls : Option (Tls K)}
    (ht : ∀ t, tls = some t → t.layer.Grows f ∧ t.sendable = []) {as : List (StreamAct ClientOp)} {c : FullStream K Client}
    {T : List (FullItem ClientError ClientEvent ClientOp)}
    (h : FullStream.run (clientMachine L) (.new tls (Client.new g o)) as = some (c, T)) :
    (streamWrote (streamPart T)).length + c.writeBuffer.length + c.waiting.length ≤ f * wanted L (streamPart T) := by
  have e : FullStream.new tls (Client.new g o) = ⟨tls, [], [], Client.new g o, .at .idle⟩ := by cases tls <;> rfl
  rw [e] at h
  have h1 := FullStream.run_grows (f := f) h ⟨hf, fun t hx => (ht t hx).1⟩
  have h2 := Nat.mul_le_mul_left f (C80_output h)
  have h3 : FullStream.pending (⟨tls, [], [], Client.new g o, .at .idle⟩ : FullStream K Client) = [] := by
    cases tls with
    | none => rfl
    | some t => simp [FullStream.pending, FullStream.waiting, (ht t rfl).2]
  rw [h3] at h1
  simp only [FullStream.pending, List.length_append, List.length_nil] at h1
  omega

/-- A server that greets without ever ending the line. -/
example : ∀ b ∈ [str "* OK", str " hello", [CR]], b ≠ [] ∧ LF ∉ b := by decide +kernel

/-- A server that rejects a command with a literal and begins another response: 7 of the 12 bytes that the user asked for were written,
and the beginning of the response is held. -/
example : ((FullStream.insecure (K := Nat) (Client.new ClientSample.g .default)).run (clientMachine Toy.lib)
      [.callNext, .read (ln "Ghi"), .user (.enqueueCommand ClientSample.cmdA), .callNext, .write 7, .read (ln "bA no"), .callNext,
        .read (str "oB")]).map (fun x => (x.1.ctl, x.1.state.buffer, (streamWrote (streamPart x.2)).length, wanted Toy.lib (streamPart x.2))) =
    some (.at .reading, str "oB", 7, 12) := by decide +kernel

set_option synthInstance.maxSize 512 in
/-- With TLS, a server that sends the greeting and the beginning of a response in one record, and the beginning of a record: the client
holds 4 bytes and the connection 2. -/
example : (∀ t, some HeldTlsSample.tls = some t → t.layer.Sized 253 ∧ t.Ready) ∧
    (HeldTlsSample.client.run (clientMachine Toy.lib) HeldTlsSample.clientActs).map
      (fun x => (x.1.ctl, x.1.writeBuffer, x.1.readBuffer, x.1.state.buffer, tlsHolds x.1.tls)) =
      some (.at .reading, [], [], str "*dx\r", 2) :=
  ⟨HeldTlsSample.tls_ready, by decide +kernel⟩

/-- With TLS, a command of which the server takes five bytes: the records of the toy layer are twice as long as their content, so 12
bytes were asked for, the first 7 of them are sent, 5 bytes are written and 9 wait. -/
example : (∀ t, some HeldTlsSample.tls = some t → t.layer.Grows 2 ∧ t.sendable = []) ∧
    (HeldTlsSample.client.run (clientMachine Toy.lib)
      [.callNext, .read (ln "Ghi" ++ str "*dx" ++ [CR]), .user (.enqueueCommand ClientSample.cmdA), .callNext, .write 5]).map
      (fun x => ((streamWrote (streamPart x.2)).length, x.1.writeBuffer.length, x.1.waiting.length, wanted Toy.lib (streamPart x.2))) =
      some (5, 9, 0, 12) := by
  refine ⟨?_, by decide +kernel⟩
  rintro t ⟨⟩
  exact ⟨toyLayer_grows, rfl⟩

end ImapFlow
