import Verif.Proofs.HeldTls
import Verif.Proofs.ClientHeld
import Verif.Proofs.IdleUnanswered
import Verif.Spec.HeldSamples
import Verif.Spec.Imap

/-!
# C76: a peer cannot make a stream with a server hold arbitrarily many bytes

False of the code: while IDLE waits for the decision of the user, `next` of a stream reads on without limit (`C76_idle`), and it goes
on to read and to answer while the peer takes none of its output (`C76_unwritten`).  Otherwise the limit of the server holds for the
stream, too (`C76_partial`); with TLS a record may be held in addition (`C76_tls_partial`).
-/

namespace ImapFlow

open ClientSample (str ln)

namespace HeldSample

theorem idling_next (b : Bytes) : (idling b).next Toy.lib = .ok (idling b, .error (.io .needMoreInput)) := by
  unfold Server.next
  rfl

theorem idling_read (b : Bytes) : FullStream.step (K := Nat) (serverMachine Toy.lib) ⟨none, [], [], idling b, .at .reading⟩ (.read [120]) =
    some (⟨none, [], [], idling (b ++ [120]), .at .reading⟩,
      [.stream (.read [120]), .stream (.deliver [120]), .stream (.poll (.error (.io .needMoreInput)))]) := by
  have h := idling_next (b ++ [120])
  simp only [FullStream.step, FullStream.completeRead, FullStream.advance, FullStream.provideInput, FullStream.deliver, serverMachine]
  simp only [List.nil_append, List.length_singleton, List.isEmpty_cons, Bool.false_eq_true, if_false, Nat.one_ne_zero]
  rw [show (idling b).enqueueInput [120] = .ok (idling (b ++ [120])) from rfl]
  dsimp only
  rw [h]
  rfl

theorem of_parts {x : Option (FullStream Nat Server × List (FullItem ServerError ServerEvent ServerOp))} {r w : Bytes} {s : Server} {ctl : FullCtl}
    (h : (x.map fun x => (x.1.tls.isNone, x.1.readBuffer, x.1.writeBuffer, x.1.state, x.1.ctl)) = some (true, r, w, s, ctl)) :
    ∃ T, x = some (⟨none, r, w, s, ctl⟩, T) := by
  match x, h with
  | some (⟨none, _, _, _, _⟩, T), h =>
    simp only [Option.map_some, Option.some.injEq, Prod.mk.injEq] at h
    obtain ⟨-, rfl, rfl, rfl, rfl⟩ := h
    exact ⟨T, rfl⟩
  | some (⟨some _, _, _, _, _⟩, T), h => simp at h

set_option synthInstance.maxSize 512 in
theorem idle_run (n : Nat) : ∃ T, start.run (serverMachine Toy.lib) (idleActs n) =
    some (⟨none, [], [], idling (List.replicate n 120), .at .reading⟩, T) := by
  induction n with
  | zero => exact of_parts (by decide +kernel)
  | succ n ih =>
    obtain ⟨T, h⟩ := ih
    have e : idleActs (n + 1) = idleActs n ++ [.read [120]] := by
      simp only [idleActs, List.replicate_succ', List.append_assoc]
    rw [e, List.replicate_succ']
    exact ⟨_, FullStream.run_snoc h (idling_read _)⟩

/-- The server after a literal that is too long was announced. -/
def rejecting : Server := { answering with sendState := { queuedMessages := [bad], currentMessage := none } }

theorem answering_next : (answering.enqueueInput (ClientSample.ln "D{xxxxx")).bind (·.next Toy.lib) =
    .ok (rejecting, .error (.error (.literalTooLong (ClientSample.ln "D{xxxxx")))) := by decide +kernel

theorem rejecting_next : rejecting.next Toy.lib = .ok (answering, .error (.io (.output (ClientSample.ln "bD no")))) := by
  decide +kernel

theorem answering_step (w : Bytes) : ∃ T, FullStream.run (K := Nat) (serverMachine Toy.lib) ⟨none, [], w, answering, .at .racing⟩
    [.read (ClientSample.ln "D{xxxxx"), .callNext] =
    some (⟨none, [], w ++ ClientSample.ln "bD no", answering, .at .racing⟩, T) := by
  have h1 := answering_next
  have h2 := rejecting_next
  cases hi : answering.enqueueInput (ClientSample.ln "D{xxxxx") with
  | error p => rw [hi] at h1; cases h1
  | ok s1 =>
    rw [hi] at h1
    replace h1 : s1.next Toy.lib = _ := h1
    have e1 : ∃ T, FullStream.run (K := Nat) (serverMachine Toy.lib) ⟨none, [], w, answering, .at .racing⟩
        [.read (ClientSample.ln "D{xxxxx")] = some (⟨none, [], w, rejecting, .at .idle⟩, T) := by
      simp only [FullStream.run, FullStream.step, FullStream.completeRead, FullStream.advance, FullStream.provideInput, FullStream.deliver,
        serverMachine, List.nil_append]
      rw [if_neg (by decide), if_neg (by decide), hi]
      dsimp only
      rw [h1]
      exact ⟨_, rfl⟩
    have e2 : ∃ T, FullStream.step (K := Nat) (serverMachine Toy.lib) ⟨none, [], w, rejecting, .at .idle⟩ .callNext =
        some (⟨none, [], w ++ ClientSample.ln "bD no", answering, .at .racing⟩, T) := by
      simp only [FullStream.step, FullStream.advance, FullStream.provideInput, FullStream.deliver, serverMachine]
      rw [if_pos (by decide)]
      dsimp only
      rw [h2]
      have hw : (w ++ ClientSample.ln "bD no").isEmpty = false := by
        rw [List.isEmpty_eq_false_iff]
        intro h
        exact absurd (List.append_eq_nil_iff.mp h).2 (by decide)
      simp only [FullStream.handleOutput, FullStream.outputBytes, hw, Bool.false_eq_true, if_false]
      exact ⟨_, rfl⟩
    obtain ⟨T1, e1⟩ := e1
    obtain ⟨T2, e2⟩ := e2
    exact ⟨_, FullStream.run_snoc e1 e2⟩

set_option synthInstance.maxSize 512 in
theorem reject_run (n : Nat) : ∃ w T, start.run (serverMachine Toy.lib) (rejectActs (n + 1)) =
    some (⟨none, [], w, answering, .at .racing⟩, T) ∧ n ≤ w.length := by
  induction n with
  | zero =>
    obtain ⟨T, h⟩ := of_parts (x := start.run (serverMachine Toy.lib) (rejectActs 1)) (r := []) (w := ClientSample.ln "bD no")
      (s := answering) (ctl := .at .racing) (by decide +kernel)
    exact ⟨_, T, h, Nat.zero_le _⟩
  | succ n ih =>
    obtain ⟨w, T, h, hw⟩ := ih
    obtain ⟨T1, h1⟩ := answering_step w
    refine ⟨w ++ ClientSample.ln "bD no", T ++ T1, ?_, ?_⟩
    · rw [rejectActs, FullStream.run_append, h]
      simp [h1]
    · simp only [List.length_append]
      have : 0 < (ClientSample.ln "bD no").length := by decide
      omega

end HeldSample

/-- A stream with a server reads on while IDLE waits: its user only calls `next`, every `read` gives at most five bytes, and nothing
waits to be written, but any number of bytes is held although commands are limited to 40 bytes. -/
theorem C76_idle (N : Nat) : ∃ (as : List (StreamAct ServerOp)) (c : FullStream Nat Server)
    (T : List (FullItem ServerError ServerEvent ServerOp)),
    HeldSample.start.run (serverMachine Toy.lib) as = some (c, T) ∧ (∀ op, .user op ∉ as) ∧
    (∀ b, .read b ∈ as → b.length ≤ 5) ∧ c.ctl = .at .reading ∧ c.writeBuffer = [] ∧ N ≤ c.held ∧
    c.state.options.maxCommandSize = 40 := by
  obtain ⟨T, h⟩ := HeldSample.idle_run N
  refine ⟨_, _, T, h, ?_, ?_, rfl, rfl, ?_, rfl⟩
  · intro op hm
    simp [HeldSample.idleActs, HeldSample.greet] at hm
  · intro b hm
    simp only [HeldSample.idleActs, HeldSample.greet, List.mem_append, List.mem_cons, List.mem_replicate, List.not_mem_nil, or_false,
      reduceCtorEq, false_or, StreamAct.read.injEq] at hm
    rcases hm with rfl | ⟨-, rfl⟩ <;> decide
  · simp [FullStream.held, HeldSample.idling, Server.buffer, Server.rx]

/-- A stream with a server goes on to read and to answer although the peer takes nothing of its output: its user only calls `next`, every
`read` gives at most nine bytes, nothing is held for the server, but any number of bytes waits to be written. -/
theorem C76_unwritten (N : Nat) : ∃ (as : List (StreamAct ServerOp)) (c : FullStream Nat Server)
    (T : List (FullItem ServerError ServerEvent ServerOp)),
    HeldSample.start.run (serverMachine Toy.lib) as = some (c, T) ∧ (∀ op, .user op ∉ as) ∧
    (∀ b, .read b ∈ as → b.length ≤ 9) ∧ c.ctl = .at .racing ∧ c.held = 0 ∧ N ≤ c.writeBuffer.length := by
  obtain ⟨w, T, h, hw⟩ := HeldSample.reject_run N
  have hm : ∀ n, (∀ op, .user op ∉ HeldSample.rejectActs n) ∧ ∀ b, .read b ∈ HeldSample.rejectActs n → b.length ≤ 9 := by
    intro n
    induction n with
    | zero => simp [HeldSample.rejectActs, HeldSample.greet]
    | succ n ih =>
      refine ⟨by simpa [HeldSample.rejectActs] using ih.1, fun b hb => ?_⟩
      simp only [HeldSample.rejectActs, List.mem_append, List.mem_cons, List.not_mem_nil, or_false, reduceCtorEq,
        StreamAct.read.injEq] at hb
      rcases hb with hb | rfl
      · exact ih.2 b hb
      · decide
  exact ⟨_, _, T, h, (hm _).1, (hm _).2, rfl, rfl, hw⟩

/-- IDLE waits only if it was received, and the user has not answered since then; on streams with and without TLS. -/
theorem C76_waits {K : Type} {L : Lib} {g : HandleGenerator} {o : ServerOptions} {gr : Greeting} {tls : Option (Tls K)}
    {as : List (StreamAct ServerOp)} {c : FullStream K Server} {T : List (FullItem ServerError ServerEvent ServerOp)}
    (h : FullStream.run (serverMachine L) (.new tls (Server.new g o gr)) as = some (c, T)) (hc : c.ctl ≠ .at .dead)
    (ha : .user .next ∉ as) (hw : c.state.idleWaits = true) : IdleUnanswered (streamPart T) := by
  rw [show FullStream.new tls (Server.new g o gr) = ⟨tls, [], [], Server.new g o gr, .at .idle⟩ by cases tls <;> rfl] at h
  exact FullStream.run_waits h hc (fun hm => ha (FullStream.run_user h hm)) hw

/-- While a stream without TLS only waits for input, nothing waits to be written, all bytes that were read have been given to the server,
and it holds less than `max_command_size` bytes, unless IDLE waits. -/
theorem C76_waiting {K : Type} {L : Lib} (hL : L.Speaks) {g : HandleGenerator} {o : ServerOptions} {gr : Greeting}
    {as : List (StreamAct ServerOp)} {c : FullStream K Server} {T : List (FullItem ServerError ServerEvent ServerOp)}
    (h : FullStream.run (serverMachine L) (.insecure (Server.new g o gr)) as = some (c, T))
    (ha : ∀ b, .user (.enqueueInput b) ∉ as) (hc : c.ctl = .at .reading) :
    c.writeBuffer = [] ∧ c.readBuffer = [] ∧ (c.state.idleWaits = false → c.state.buffer.length < o.maxCommandSize) := by
  have hb := FullStream.run_below hL h (FullStream.insecure_below g o gr) ha
  exact ⟨(hb.empty hc).2, (hb.empty hc).1, hb.below hc⟩

/-- Whatever happens, a stream without TLS holds less than `max_command_size` bytes more than it read since a time at which it only
waited for input, unless IDLE was waiting then. -/
theorem C76_since {K : Type} {L : Lib} (hL : L.Speaks) {g : HandleGenerator} {o : ServerOptions} {gr : Greeting}
    {as as' : List (StreamAct ServerOp)} {c c' : FullStream K Server} {T T' : List (FullItem ServerError ServerEvent ServerOp)}
    (h : FullStream.run (serverMachine L) (.insecure (Server.new g o gr)) as = some (c, T)) (hc : c.ctl = .at .reading)
    (hi : c.state.idleWaits = false) (h' : c.run (serverMachine L) as' = some (c', T'))
    (ha : ∀ b, .user (.enqueueInput b) ∉ as ++ as') : c'.held < o.maxCommandSize + (as'.map StreamAct.given).sum := by
  have hb := FullStream.run_below hL h (FullStream.insecure_below g o gr) fun b hm => ha b (List.mem_append_left _ hm)
  have h1 := FullStream.run_given hL h' hb fun b hm => ha b (List.mem_append_right _ hm)
  have h2 := hb.below hc hi
  have h3 : c.held = c.state.buffer.length := by simp [FullStream.held, (hb.empty hc).1]
  omega

/-- If no `read` gives more than `N` bytes, and none completes while output is written or while IDLE waits, then a stream without TLS
never holds more than `max_command_size + N` bytes that wait to be decoded.

Partial: `C76_idle` and `C76_unwritten` show that the conditions are needed.  For streams with TLS see `C76_tls_partial`. -/
theorem C76_partial {K : Type} {L : Lib} (hL : L.Speaks) {g : HandleGenerator} {o : ServerOptions} {gr : Greeting} {N : Nat}
    {as : List (StreamAct ServerOp)} {c : FullStream K Server} {T : List (FullItem ServerError ServerEvent ServerOp)}
    (h : FullStream.run (serverMachine L) (.insecure (Server.new g o gr)) as = some (c, T))
    (ha : (FullStream.insecure (K := K) (Server.new g o gr)).modest L N as = true) : c.held ≤ o.maxCommandSize + N :=
  FullStream.run_held hL h (FullStream.insecure_below g o gr) (Nat.zero_le _) ha

/-- While a stream with or without TLS only waits for input, nothing waits to be written, all bytes that were read have been given to the
TLS connection, all plaintext has been given to the server, the connection holds less than a record, and the server holds less than
`max_command_size` bytes, unless IDLE waits (`C76_waits`).  `r` is the maximal size of a record. -/
theorem C76_tls_waiting {K : Type} {L : Lib} (hL : L.Speaks) {g : HandleGenerator} {o : ServerOptions} {gr : Greeting} {r : Nat}
    {tls : Option (Tls K)} (ht : ∀ t, tls = some t → t.layer.Sized r ∧ t.Ready)
    {as : List (StreamAct ServerOp)} {c : FullStream K Server} {T : List (FullItem ServerError ServerEvent ServerOp)}
    (h : FullStream.run (serverMachine L) (.new tls (Server.new g o gr)) as = some (c, T))
    (ha : ∀ b, .user (.enqueueInput b) ∉ as) (hc : c.ctl = .at .reading) :
    c.writeBuffer = [] ∧ c.readBuffer = [] ∧ (∀ t, c.tls = some t → t.plain = [] ∧ t.raw.length < r) ∧
    (c.state.idleWaits = false → c.state.buffer.length < o.maxCommandSize) := by
  have hq := (FullStream.run_quiet (serverMachine_holds hL o.maxCommandSize) h (FullStream.new_quiet ⟨_, rfl, rfl⟩ ht)
    fun op hm b he => ha b (he ▸ hm)).1
  obtain ⟨h1, h2, h3⟩ := hq.waits hc
  refine ⟨h3, h2, fun t ht => ?_, h1⟩
  have h4 := hq.ready (by rw [hc]; nofun) (by rw [hc]; nofun) t ht
  exact ⟨h4.plain, (hq.sized t ht).limit h4.raw⟩

/-- Whatever happens, a stream with or without TLS holds less than `max_command_size` bytes and a record more than it read since a time at
which it only waited for input, unless IDLE was waiting then. -/
theorem C76_tls_since {K : Type} {L : Lib} (hL : L.Speaks) {g : HandleGenerator} {o : ServerOptions} {gr : Greeting} {r : Nat}
    {tls : Option (Tls K)} (ht : ∀ t, tls = some t → t.layer.Sized r ∧ t.Ready)
    {as as' : List (StreamAct ServerOp)} {c c' : FullStream K Server} {T T' : List (FullItem ServerError ServerEvent ServerOp)}
    (h : FullStream.run (serverMachine L) (.new tls (Server.new g o gr)) as = some (c, T)) (hc : c.ctl = .at .reading)
    (hi : c.state.idleWaits = false) (h' : c.run (serverMachine L) as' = some (c', T'))
    (ha : ∀ b, .user (.enqueueInput b) ∉ as ++ as') :
    c'.held + tlsHolds c'.tls < o.maxCommandSize + r + (as'.map StreamAct.given).sum := by
  have hq := (FullStream.run_quiet (serverMachine_holds hL o.maxCommandSize) h (FullStream.new_quiet ⟨_, rfl, rfl⟩ ht)
    fun op hm b he => ha b (List.mem_append_left _ (he ▸ hm))).1
  have h1 := (FullStream.run_quiet (serverMachine_holds hL o.maxCommandSize) h' hq
    fun op hm b he => ha b (List.mem_append_right _ (he ▸ hm))).2
  have h2 := hq.reading hc hi
  rw [FullStream.holds_eq, FullStream.holds_eq, FullStream.given_eq] at h1
  omega

/-- If no `read` gives more than `N` bytes, and none completes while output is written or while IDLE waits, then a stream with or without
TLS never holds more than `max_command_size + N` bytes and a record.

Partial: `C76_idle` and `C76_unwritten` show that the conditions are needed. -/
theorem C76_tls_partial {K : Type} {L : Lib} (hL : L.Speaks) {g : HandleGenerator} {o : ServerOptions} {gr : Greeting} {r N : Nat}
    {tls : Option (Tls K)} (ht : ∀ t, tls = some t → t.layer.Sized r ∧ t.Ready)
    {as : List (StreamAct ServerOp)} {c : FullStream K Server} {T : List (FullItem ServerError ServerEvent ServerOp)}
    (h : FullStream.run (serverMachine L) (.new tls (Server.new g o gr)) as = some (c, T))
    (ha : (FullStream.new tls (Server.new g o gr)).modest L N as = true) :
    c.held + tlsHolds c.tls ≤ o.maxCommandSize + r + N := by
  refine FullStream.run_held_tls hL h (FullStream.new_quiet ⟨_, rfl, rfl⟩ ht) ?_ ha
  rw [← FullStream.holds_eq, FullStream.new_held]
  cases tls with
  | none => exact Nat.zero_le _
  | some t =>
    obtain ⟨h1, h2⟩ := ht t rfl
    have h3 := h1.limit h2.raw
    simp only [tlsHolds, Tls.holds, h2.plain, List.length_nil]
    have h4 : (Server.new g o gr).buffer.length = 0 := rfl
    omega

/-- The toy codec meets the condition. -/
example : Toy.lib.Speaks := by
  refine ⟨fun g => by simp [wire, Toy.lib, Toy.encodeGreeting, Fragment.data, Toy.ln], fun r => ?_⟩
  show wire (Toy.encodeResponse r) ≠ []
  unfold Toy.encodeResponse
  split <;> try (simp [wire, Fragment.data, Toy.ln]; done)
  split <;> simp [wire, Fragment.data, Toy.ln, Toy.announce]

/-- The codec of IMAP meets it, too. -/
example : Imap.lib.Speaks := by
  refine ⟨fun g => by simp [wire, Imap.lib, Imap.encodeGreeting, Fragment.data, Imap.ln], fun r => ?_⟩
  show wire (Imap.encodeResponse r) ≠ []
  unfold Imap.encodeResponse
  split <;> try (simp [wire, Fragment.data, Imap.ln]; done)
  rename_i content
  obtain ⟨d, rest, h, hd⟩ := Imap.toFragments_line Imap.responseAnnounced (Imap.ln_ne (ascii "* " ++ content))
  rw [h]
  simp [wire, Fragment.data, hd]

set_option synthInstance.maxSize 512 in
/-- A client that sends IDLE and more while the user does not decide: since the stream waited for the rest of the first line, it read
14 bytes, and holds 10. -/
example : ∃ c T c' T', HeldSample.start.run (serverMachine Toy.lib) (HeldSample.greet ++ [.read (str "I")]) = some (c, T) ∧
    c.ctl = .at .reading ∧ c.state.idleWaits = false ∧
    c.run (serverMachine Toy.lib) [.read (ln " I"), .callNext, .read (str "xxxxx"), .read (str "xxxxx")] = some (c', T') ∧ c'.held = 10 := by
  have h : ((HeldSample.start.run (serverMachine Toy.lib) (HeldSample.greet ++ [.read (str "I")])).bind fun x =>
      (x.1.run (serverMachine Toy.lib) [.read (ln " I"), .callNext, .read (str "xxxxx"), .read (str "xxxxx")]).map fun y =>
        (x.1.ctl, x.1.state.idleWaits, y.1.held)) = some (.at .reading, false, 10) := by decide +kernel
  rw [Option.bind_eq_some_iff] at h
  obtain ⟨⟨c, T⟩, h1, h2⟩ := h
  rw [Option.map_eq_some_iff] at h2
  obtain ⟨⟨c', T'⟩, h3, h4⟩ := h2
  simp only [Prod.mk.injEq] at h4
  exact ⟨c, T, c', T', h1, h4.1, h4.2.1, h3, h4.2.2⟩

/-- A client that sends a command in parts, and IDLE, which is accepted at once; at the end 3 bytes are held. -/
example : HeldSample.start.modest Toy.lib 7 HeldSample.modestActs = true ∧
    (HeldSample.start.run (serverMachine Toy.lib) HeldSample.modestActs).map (fun x => (x.1.ctl, x.1.held)) =
      some (.at .reading, 3) := by decide +kernel

set_option synthInstance.maxSize 512 in
/-- With TLS, a client that sends a command, and the beginning of a command in two records, and the beginning of a record: at the end the
server holds 6 bytes and the connection 3; 11 bytes were read since the stream waited for input for the first time. -/
example : (∀ t, some HeldTlsSample.tls = some t → t.layer.Sized 253 ∧ t.Ready) ∧
    HeldTlsSample.server.modest Toy.lib 9 HeldTlsSample.serverActs = true ∧
    (HeldTlsSample.server.run (serverMachine Toy.lib) (HeldTlsSample.serverActs.take 4)).map (fun x => (x.1.ctl, x.1.state.idleWaits)) =
      some (.at .reading, false) ∧
    (HeldTlsSample.server.run (serverMachine Toy.lib) HeldTlsSample.serverActs).map
      (fun x => (x.1.ctl, x.1.writeBuffer, x.1.readBuffer, x.1.state.buffer, tlsHolds x.1.tls, x.1.held)) =
      some (.at .reading, [], [], str "B Cxyz", 3, 6) :=
  ⟨HeldTlsSample.tls_ready, by decide +kernel, by decide +kernel, by decide +kernel⟩

end ImapFlow
