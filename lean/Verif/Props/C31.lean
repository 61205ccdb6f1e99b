import Verif.Proofs.StreamClient
import Verif.Proofs.StreamSent
import Verif.Props.C30
import Verif.Props.C48
import Verif.Spec.ServerSamples

/-!
# C31: a sent event means the bytes were written (false; what holds instead)

`CommandSent` is reported as soon as the bytes of the command are in the write buffer of the stream and the
stream called the state again.  In `Stream::next` the read branch of `select!` may complete first
(`/repo/src/stream.rs:152-155`), and then the state is called although the write buffer is not empty.

What holds for all sent events of clients and servers, with and without TLS: the bytes were handed out and are
written in order (C30, C48); they can be read by the peer after any later successful `flush`, and at once if the
event is returned after a completed write.
-/

namespace ImapFlow

variable {K σ ε ev ι : Type}

/-- The claim for one run: whenever `next` returned `CommandSent`, the bytes of the command had been written
to the socket. -/
def SentMeansWritten (L : Lib) (T : List (StreamItem ClientError ClientEvent ClientOp)) : Prop :=
  ∀ pre h cmd post, T = pre ++ .returned (.ok (.commandSent h cmd)) :: post →
    wire (L.encodeCommand cmd) <:+: streamWrote pre

/-- The claim is false. -/
theorem C31_false : ¬ ∀ (L : Lib) (_ : L.Lawful) (g : HandleGenerator) (o : ClientOptions) (as : List (StreamAct ClientOp))
    (c : StreamConf Client) (T : List (StreamItem ClientError ClientEvent ClientOp)),
    StreamConf.run (clientMachine L) (.insecure (Client.new g o)) as = some (c, T) → StreamOwned T →
    SentMeansWritten L T := by
  intro H
  have h1 := StreamSample.run_acts1
  cases hr : StreamConf.run (clientMachine Toy.lib) StreamSample.start (StreamSample.acts.take 12) with
  | none => rw [hr] at h1; cases h1
  | some x =>
    obtain ⟨c, T⟩ := x
    rw [hr] at h1
    simp only [Option.map_some, Option.some.injEq, Prod.mk.injEq] at h1
    have h2 := H Toy.lib Toy.lawful _ _ _ c T hr (by rw [h1.2.2]; show _ ∉ _; decide +kernel) StreamSample.items1 _ _ [] h1.2.2
    have h3 : streamWrote StreamSample.items1 = ClientSample.str "C " := by decide +kernel
    have h4 : wire (Toy.lib.encodeCommand ClientSample.cmdC) = ClientSample.str "C Cz\r\n" := by decide +kernel
    rw [h3, h4] at h2
    exact absurd h2.length_le (by decide +kernel)

/-- What holds instead, for every command reported as sent:
its bytes were the last ones the client handed out, so by `C30_output` they are written or in the write
buffer in order; and after any later successful `flush` they are written. -/
theorem C31_partial {L : Lib} (hL : L.Lawful) {g : HandleGenerator} {o : ClientOptions} {as : List (StreamAct ClientOp)}
    {c : StreamConf Client} {pre post : List (StreamItem ClientError ClientEvent ClientOp)} {hd : RawHandle} {cmd : Command}
    (h : StreamConf.run (clientMachine L) (.insecure (Client.new g o)) as =
      some (c, pre ++ .returned (.ok (.commandSent hd cmd)) :: post))
    (ho : StreamOwned pre) :
    wire (L.encodeCommand cmd) <:+ streamOutput pre ∧
    ∀ p1 p2, post = p1 ++ .flushed (.ok ()) :: p2 → wire (L.encodeCommand cmd) <:+: streamWrote (pre ++ p1) := by
  refine ⟨stream_commandSent hL h ho, fun p1 p2 hp => ?_⟩
  subst hp
  have h1 := C30_flush (c := c) (M := clientMachine L) (s := Client.new g o) (as := as) (pre := pre ++ .returned (.ok (.commandSent hd cmd)) :: p1) (post := p2) (by rw [h]; simp)
  have h2 : streamWrote (pre ++ p1) = streamOutput pre ++ streamOutput p1 := by
    rw [streamWrote_append, streamOutput_append] at h1
    rw [streamWrote_append]
    exact h1
  rw [h2]
  obtain ⟨x, hx⟩ := stream_commandSent hL h ho
  exact ⟨x, streamOutput p1, by rw [hx]⟩

/-- An event that `next` returns directly after a completed write is returned when everything the state
handed out has been written. -/
theorem C31_after_write {M : Machine σ ε ev ι} {s : σ} {as : List (StreamAct ι)} {c : StreamConf σ}
    {pre q post : List (StreamItem ε ev ι)} {b : Bytes} {e : ev}
    (h : StreamConf.run M (.insecure s) as = some (c, pre ++ .wrote b :: (q ++ .returned (.ok e) :: post)))
    (hq : ∀ i ∈ q, (∃ r, i = .poll r) ∨ ∃ b, i = .deliver b) :
    streamWrote (pre ++ .wrote b :: q) = streamOutput (pre ++ .wrote b :: q) := by
  classical
  have h' : StreamConf.run M (.insecure s) as = some (c, (pre ++ .wrote b :: q) ++ .returned (.ok e) :: post) := by
    rw [h]; simp
  obtain ⟨as1, a, as2, c1, c2, T1, T2, p, p', -, h1, h2, -, hp, -⟩ := StreamConf.run_split h'
  rcases (StreamConf.step_shape h2).returned with ⟨x, c0, q1, rfl, he, rfl, hadv⟩ | ⟨y, -, -, h3 | h3⟩
  · obtain ⟨-, hidle, rfl, hw⟩ := ((StreamConf.advance_spec M c0).2.split hadv).2.1 _ rfl
    have hrun : StreamConf.run M (.insecure s) (as1 ++ [a]) =
        some ((StreamConf.advance M c0).1, T1 ++ (x :: q1 ++ [.returned (.ok e)])) := by
      rw [StreamConf.run_append, h1]
      simp only [StreamConf.run, h2, Option.bind_some, Option.map_some, List.append_nil]
    have hout := C30_output hrun
    rw [hw e rfl] at hout
    -- the step was entered by the write
    have hx : x = .wrote b ∧ q1 = q ∧ T1 = pre := by
      have hq1 : ∀ i ∈ q1, ∀ b, i ≠ .wrote b := by
        intro i hi b' hb
        obtain ⟨u, v, rfl⟩ := List.append_of_mem hi
        rw [List.append_assoc] at hadv
        exact ((StreamConf.advance_spec M c0).2.split hadv).2.2.2.1 b' hb
      rw [List.append_eq_append_iff] at hp
      rcases hp with ⟨u, e1, e2⟩ | ⟨u, e1, e2⟩
      · cases u with
        | nil =>
          injection e2 with e2 e3
          exact ⟨e2.symm, e3.symm, by simp [e1]⟩
        | cons z u =>
          exfalso
          injection e2 with e2 e3
          have hm : x ∈ q := by rw [e3]; simp
          rcases hq x hm with ⟨r, rfl⟩ | ⟨b', rfl⟩
          · exact he.not_poll.1 _ rfl
          · rcases he with ⟨e4, -⟩ | ⟨b, e4, -⟩ | ⟨b, e4, -⟩ <;> cases e4
      · cases u with
        | nil =>
          injection e2 with e2 e3
          exact ⟨e2, e3, by simp [e1]⟩
        | cons z u =>
          exfalso
          injection e2 with e2 e3
          exact hq1 (.wrote b) (by rw [e3]; simp) b rfl
    obtain ⟨rfl, rfl, rfl⟩ := hx
    rcases he with ⟨e4, -⟩ | ⟨b', e4, -⟩ | ⟨b', e4, -, -, -, e5⟩
    · cases e4
    · cases e4
    · rw [e5, List.append_nil] at hout
      rw [← List.append_assoc, streamWrote_append, streamOutput_append] at hout
      simpa [streamWrote, streamOutput] using hout
  · cases h3
  · cases h3

/-- In the sample the whole command is reported as sent when two of its six bytes were written; the flush
writes the rest. -/
example : ∃ c, StreamConf.run (clientMachine Toy.lib) StreamSample.start StreamSample.acts =
      some (c, StreamSample.items1 ++ .returned (.ok (.commandSent ClientSample.hA ClientSample.cmdC)) :: StreamSample.items2) ∧
    streamOutput StreamSample.items1 = ClientSample.str "C Cz\r\n" ∧
    streamWrote StreamSample.items1 = ClientSample.str "C " ∧ .flushed (.ok ()) ∈ StreamSample.items2 := by
  obtain ⟨c, h⟩ := StreamSample.items_run
  exact ⟨c, h, by decide +kernel, by decide +kernel, by decide +kernel⟩

/-! ## All sent events, clients and servers, with and without TLS -/

/-- Whenever `next` of a client returns a sent event: the bytes it reports belong to a command that was enqueued
under the reported handle, and they were the last ones the client handed out. -/
theorem C31_client {L : Lib} (hL : L.Lawful) {tls : Option (Tls K)} {g : HandleGenerator} {o : ClientOptions}
    {as : List (StreamAct ClientOp)} {c : FullStream K Client} {pre post : List (FullItem ClientError ClientEvent ClientOp)}
    {e : ClientEvent}
    (h : FullStream.run (clientMachine L) (.fresh tls (Client.new g o)) as =
      some (c, pre ++ .stream (.returned (.ok e)) :: post))
    (he : e.isSent = true) (ho : StreamOwned (streamPart pre)) :
    ∃ x b c2 H, e.Sends L x b ∧ b <:+ streamOutput (streamPart pre) ∧
      (Client.new g o).run L (streamClientOps (streamPart pre)) = .ok (c2, H) ∧ .enqueued x.1 x.2 ∈ H := by
  obtain ⟨S, s, h1, h2⟩ := FullStream.run_returned_ok h
  have hs : (FullStream.fresh tls (Client.new g o) : FullStream K Client).state = Client.new g o := by cases tls <;> rfl
  rw [hs] at h2
  have h3 := h2
  rw [h1] at h2
  have ho' : StreamOwned S := by
    intro hm
    exact ho (by rw [h1]; exact List.mem_append_left _ hm)
  obtain ⟨x, b, c2, H, g1, g2, g3, g4⟩ := client_sent hL h2 he ho'
  obtain ⟨H', f1, -⟩ := stream_client_run h3
  refine ⟨x, b, s, H', g1, ?_, f1, ?_⟩
  · rw [h1, streamOutput_append]
    simpa [streamOutput] using g2
  · rw [h1, streamClientOps, List.filterMap_append] at f1
    have f2 := Client.run_snoc g3
    have f3 : (Client.new g o).run L (streamClientOps S ++ [.next]) = .ok (s, H') := f1
    rw [f3] at f2
    cases hc : c2.call L .next with
    | error p => rw [hc] at f2; cases f2
    | ok y =>
      rw [hc] at f2
      obtain ⟨c5, obs⟩ := y
      injection f2 with f2
      injection f2 with _ f2
      rw [f2]
      exact List.mem_append_left _ g4

/-- Whenever `next` of a server returns a sent event, the bytes it reports were the last ones the server handed
out. -/
theorem C31_server {L : Lib} {tls : Option (Tls K)} {g : HandleGenerator} {o : ServerOptions} {gr : Greeting}
    {as : List (StreamAct ServerOp)} {c : FullStream K Server} {pre post : List (FullItem ServerError ServerEvent ServerOp)}
    {e : ServerEvent} {b : Bytes}
    (h : FullStream.run (serverMachine L) (.fresh tls (Server.new g o gr)) as =
      some (c, pre ++ .stream (.returned (.ok e)) :: post))
    (he : e.Sends L b) (ho : StreamOwnedServer (streamPart pre)) : b <:+ streamOutput (streamPart pre) := by
  obtain ⟨S, s, h1, h2⟩ := FullStream.run_returned_ok h
  have hs : (FullStream.fresh tls (Server.new g o gr) : FullStream K Server).state = Server.new g o gr := by cases tls <;> rfl
  rw [hs, h1] at h2
  have ho' : StreamOwnedServer S := by
    intro hm
    exact ho (by rw [h1]; exact List.mem_append_left _ hm)
  rw [h1, streamOutput_append]
  simpa [streamOutput] using server_sent h2 he ho'

/-- After a successful `flush`, a peer can read everything that was handed out before, with or without TLS; so it
can read every message that was reported as sent (`C31_client`, `C31_server`).  Unless `encrypt` failed (C34). -/
theorem C31_flush {M : Machine σ ε ev ι} {paired : K → K → Prop} {tls : Option (Tls K)} (ht : ReadyToSend paired tls)
    {s : σ} {as : List (StreamAct ι)} {c : FullStream K σ} {pre p1 p2 : List (FullItem ε ev ι)} {b : Bytes}
    (h : FullStream.run M (.fresh tls s) as = some (c, pre ++ p1 ++ .stream (.flushed (.ok ())) :: p2))
    (hr : .refused ∉ pre ++ p1) (hb : b <:+ streamOutput (streamPart pre)) :
    ∃ plain, Readable paired tls (streamWrote (streamPart (pre ++ p1))) plain ∧ b <:+: plain := by
  refine ⟨streamOutput (streamPart (pre ++ p1)), ?_, ?_⟩
  · cases tls with
    | none =>
      have h1 := FullStream.run_insecure (K := K) M s as
      rw [show FullStream.insecure s = FullStream.fresh none s from rfl, h] at h1
      cases hp : (StreamConf.insecure s).run M as with
      | none => rw [hp] at h1; cases h1
      | some y =>
        obtain ⟨cp, T⟩ := y
        rw [hp] at h1
        simp only [Option.map_some, liftPlain, Option.some.injEq, Prod.mk.injEq] at h1
        have h2 := congrArg streamPart h1.2
        rw [streamPart_map, streamPart_append, streamPart_cons] at h2
        rw [← h2] at hp
        exact (C30_flush hp).symm
    | some t =>
      obtain ⟨h1, h2, -⟩ := ht t rfl
      intro kr hk
      exact C48_flush h1 hk h2 h hr
  · rw [streamPart_append, streamOutput_append]
    obtain ⟨x, hx⟩ := hb
    exact ⟨x, _, by rw [hx]⟩

/-- An event that `next` returns directly after the completion of a write is returned when a peer can read
everything the state handed out, with or without TLS. -/
theorem C31_written {M : Machine σ ε ev ι} {paired : K → K → Prop} {tls : Option (Tls K)} (ht : ReadyToSend paired tls)
    {s : σ} {as : List (StreamAct ι)} {c : FullStream K σ} {pre q post : List (FullItem ε ev ι)} {b : Bytes} {e : ev}
    (h : FullStream.run M (.fresh tls s) as =
      some (c, pre ++ .stream (.wrote b) :: (q ++ .stream (.returned (.ok e)) :: post)))
    (hq : ∀ i ∈ q, (∃ r, i = .stream (.poll r)) ∨ ∃ b, i = .stream (.deliver b)) (hr : .refused ∉ pre) :
    Readable paired tls (streamWrote (streamPart (pre ++ .stream (.wrote b) :: q)))
      (streamOutput (streamPart (pre ++ .stream (.wrote b) :: q))) := by
  have h' : FullStream.run M (.fresh tls s) as =
      some (c, (pre ++ .stream (.wrote b) :: q) ++ .stream (.returned (.ok e)) :: post) := by
    rw [h]; simp
  obtain ⟨as1, a, as2, c1, c2, T1, T2, u, u', -, h1, h2, -, hu, -⟩ := FullStream.run_split h'
  obtain ⟨rfl, ⟨u0, rfl⟩, hidle, hw, hru⟩ := (FullStream.step_cases h2).returned_ok rfl
  -- the step began with the write
  have hbegin : ∃ x u1, u0 ++ [FullItem.stream (.poll (.ok e))] = .stream x :: u1 ∧ (∀ r, x ≠ .poll r) ∧
      (∀ b, x ≠ .deliver b) ∧ ∀ b, .stream (.wrote b) ∉ u1 := by
    have key : ∀ {x U' c0}, FullStream.Advanced M (c0 : FullStream K σ) c2 U' →
        u0 ++ [FullItem.stream (.poll (.ok e))] ++ [FullItem.stream (.returned (.ok e))] = .stream x :: U' →
        (∀ r, x ≠ .poll r) → (∀ b, x ≠ .deliver b) →
        ∃ x u1, u0 ++ [FullItem.stream (.poll (.ok e))] = .stream x :: u1 ∧ (∀ r, x ≠ .poll r) ∧
          (∀ b, x ≠ .deliver b) ∧ ∀ b, .stream (.wrote b) ∉ u1 := by
      intro x U' c0 hadv hU hx1 hx2
      cases hv : u0 ++ [FullItem.stream (.poll (.ok e))] with
      | nil => simp at hv
      | cons y u1 =>
        rw [hv] at hU
        injection hU with e1 e2
        refine ⟨x, u1, by rw [e1], hx1, hx2, fun b hb => ?_⟩
        have hb' : FullItem.stream (.wrote b) ∈ U' := by rw [← e2]; exact List.mem_append_left _ hb
        have hprov : ∀ {b' s s1} {D : List (StreamItem ε ev ι)}, Provides M b' s s1 D → .wrote b ∉ D := by
          rintro b' s s1 D (⟨-, -, rfl⟩ | ⟨-, -, rfl⟩) <;> simp
        cases hadv with
        | hung => simp at hb'
        | broken => simp at hb'
        | inputPanic => simp at hb'
        | nextPanic _ g => have := hprov g; simp [this] at hb'
        | @returned _ _ _ _ _ _ r _ g => have := hprov g; rcases r with (io | e) | e <;> simp [returns, this] at hb'
        | waits _ g => have := hprov g; simp [this] at hb'
        | refused _ g => have := hprov g; simp [this] at hb'
    have hcase := FullStream.step_cases h2
    generalize hU : u0 ++ [FullItem.stream (.poll (.ok e))] ++ [FullItem.stream (.returned (.ok e))] = U at hcase
    have hm : FullItem.stream (.returned (.ok e)) ∈ U := by rw [← hU]; simp
    cases hcase with
    | user => simp at hm
    | userPanic => simp at hm
    | callNext _ g => exact key g hU (by simp) (by simp)
    | read _ _ g => exact key g hU (by simp) (by simp)
    | written _ _ _ g => exact key g hU (by simp) (by simp)
    | wrote _ _ _ g => rcases g with ⟨-, rfl, -⟩ | ⟨-, -, rfl, -⟩ <;> simp at hm
    | flush _ _ g => rcases g with ⟨-, rfl, -⟩ | ⟨-, rfl, -⟩ <;> simp at hm
    | ended _ g =>
      rcases g with ⟨-, rfl, rfl⟩ | ⟨-, rfl, rfl⟩ | ⟨-, rfl, rfl⟩ | ⟨-, rfl, rfl⟩ | ⟨-, rfl, rfl⟩ <;> simp at hm
    | dropped => simp at hm
  obtain ⟨x, u1, hx, hx1, hx2, hx3⟩ := hbegin
  have hsplit : T1 = pre ∧ x = .wrote b := by
    rw [hx] at hu
    rcases List.append_eq_append_iff.1 hu with ⟨v, e1, e2⟩ | ⟨v, e1, e2⟩
    · cases v with
      | nil =>
        injection e2 with e2 _
        injection e2 with e2
        exact ⟨by simpa using e1, e2.symm⟩
      | cons z v =>
        injection e2 with _ e3
        have hmem : FullItem.stream x ∈ q := by rw [e3]; simp
        rcases hq _ hmem with ⟨r, hr⟩ | ⟨b', hb'⟩
        · injection hr with hr; exact (hx1 r hr).elim
        · injection hb' with hb'; exact (hx2 b' hb').elim
    · cases v with
      | nil =>
        injection e2 with e2 _
        injection e2 with e2
        exact ⟨by simpa using e1.symm, e2⟩
      | cons z v =>
        injection e2 with _ e3
        exact (hx3 b (by rw [e3]; simp)).elim
  obtain ⟨rfl, rfl⟩ := hsplit
  have hrun := FullStream.run_snoc h1 h2
  have hrq : FullItem.refused ∉ T1 ++ (u0 ++ [FullItem.stream (.poll (.ok e))] ++ [.stream (.returned (.ok e))]) := by
    simp only [List.mem_append, not_or]
    simp only [List.mem_append, not_or] at hru
    exact ⟨hr, hru, by simp⟩
  have hsender : Sender paired (FullStream.fresh tls s).tls := by
    have : (FullStream.fresh tls s).tls = tls := by cases tls <;> rfl
    rw [this]
    exact ht
  obtain ⟨⟨out, g1, g2⟩, -, -⟩ := FullStream.run_send hrun hsender (by cases tls <;> nofun) hrq
  have hwb : (FullStream.fresh tls s).writeBuffer = [] := by cases tls <;> rfl
  rw [hw b u1 hx, hwb, List.append_nil, List.nil_append] at g2
  have hparts : ∀ (f : List (StreamItem ε ev ι) → Bytes), (∀ A B, f (A ++ B) = f A ++ f B) → f [.returned (.ok e)] = [] →
      f (streamPart (T1 ++ (u0 ++ [FullItem.stream (.poll (.ok e))] ++ [.stream (.returned (.ok e))]))) =
        f (streamPart (T1 ++ .stream (.wrote b) :: q)) := by
    intro f hf1 hf2
    rw [hu, ← List.append_assoc, streamPart_append, hf1, streamPart_cons]
    show _ ++ f [.returned (.ok e)] = _
    rw [hf2, List.append_nil]
  rw [hparts _ streamOutput_append (by simp [streamOutput])] at g1
  rw [hparts _ streamWrote_append (by simp [streamWrote])] at g2
  rw [g2]
  cases tls with
  | none =>
    cases ht2 : c2.tls with
    | none => rw [ht2] at g1; exact g1.symm
    | some t2 => rw [ht2] at g1; exact g1.elim
  | some t =>
    cases ht2 : c2.tls with
    | none => rw [ht2] at g1; exact g1.elim
    | some t2 =>
      rw [ht2] at g1
      intro kr hk
      obtain ⟨ds, kr', g3, g4, -⟩ := g1.2.2.2 kr hk
      exact ⟨ds, kr', g3, g4⟩

/-- A server whose greeting is reported as sent when one byte of it is written: the input of the client overtakes
the rest. -/
example : ((FullStream.run (serverMachine Toy.lib) (.fresh (none : Option (Tls Nat))
      (Server.new ClientSample.g ServerSample.options ServerSample.greeting)) [.callNext, .write 1, .read (ClientSample.str "x")]).map
    fun x => ((streamPart x.2).getLast?, streamWrote (streamPart x.2))) =
      some (some (.returned (.ok (.greetingSent ServerSample.greeting))), ClientSample.str "G") := by decide +kernel

/-- With TLS the command of the sample is reported as sent after the flush. -/
example : ∃ (c : FullStream Nat Client) (pre post : List (FullItem ClientError ClientEvent ClientOp)),
    FullStream.run (clientMachine Toy.lib) (.fresh (some FullSample.tls) (Client.new ClientSample.g .default)) FullSample.acts =
      some (c, pre ++ .stream (.returned (.ok (.commandSent ClientSample.hA ClientSample.cmdC))) :: post) ∧
    StreamOwned (streamPart pre) ∧ streamOutput (streamPart pre) = ClientSample.str "C Cz\r\n" := by
  obtain ⟨c, h, -⟩ := FullSample.items_run
  have hsplit : FullSample.items = FullSample.items.take 25 ++
      .stream (.returned (.ok (.commandSent ClientSample.hA ClientSample.cmdC))) :: FullSample.items.drop 26 := by decide +kernel
  refine ⟨c, FullSample.items.take 25, FullSample.items.drop 26, ?_, ?_, by decide +kernel⟩
  · rw [← hsplit]; exact h
  · show _ ∉ _
    decide +kernel

set_option synthInstance.maxSize 512 in
/-- The condition about `encrypt` in `C31_flush` is needed: with TLS a command can be reported as sent although rustls
refused its last bytes (C34).  `next` returns an I/O error first; if it is called again the command is reported as sent,
and after a successful `flush` the peer reads a truncated command. -/
theorem C31_refused : ∃ (t : Tls Nat) (as : List (StreamAct ClientOp)) (c : FullStream Nat Client)
    (pre post : List (FullItem ClientError ClientEvent ClientOp)),
    ReadyToSend (· = ·) (some t) ∧
    FullStream.run (clientMachine Toy.lib) (.fresh (some t) (Client.new ClientSample.g .default)) as =
      some (c, pre ++ .stream (.returned (.ok (.commandSent ClientSample.hA ClientSample.cmdC))) :: post) ∧
    post.getLast? = some (.stream (.flushed (.ok ()))) ∧
    wire (Toy.lib.encodeCommand ClientSample.cmdC) = ClientSample.str "C Cz\r\n" ∧
    Readable (· = ·) (some t)
      (streamWrote (streamPart (pre ++ .stream (.returned (.ok (.commandSent ClientSample.hA ClientSample.cmdC))) :: post)))
      (ClientSample.str "C Cz\r") := by
  have hrun : ((FullStream.run (clientMachine Toy.lib)
      (.fresh (some { FullSample.tls with limit := 5 }) (Client.new ClientSample.g .default))
      (FullSample.acts.take 8 ++ [.callNext, .callFlush, .write 10])).map fun x =>
        (x.2.length, x.2[21]?, x.2.getLast?, streamWrote (streamPart x.2))) =
      some (25, some (.stream (.returned (.ok (.commandSent ClientSample.hA ClientSample.cmdC)))),
        some (.stream (.flushed (.ok ()))), [1, 67, 1, 32, 1, 67, 1, 122, 1, 13]) := by decide +kernel
  cases hr : FullStream.run (clientMachine Toy.lib)
      (.fresh (some { FullSample.tls with limit := 5 }) (Client.new ClientSample.g .default))
      (FullSample.acts.take 8 ++ [.callNext, .callFlush, .write 10]) with
  | none => rw [hr] at hrun; cases hrun
  | some x =>
    obtain ⟨c, T⟩ := x
    rw [hr] at hrun
    simp only [Option.map_some, Option.some.injEq, Prod.mk.injEq] at hrun
    obtain ⟨h1, h2, h3, h4⟩ := hrun
    obtain ⟨hlt, h2⟩ := List.getElem?_eq_some_iff.1 h2
    have hT : T = T.take 21 ++ T[21] :: T.drop 22 := by
      rw [List.getElem_cons_drop, List.take_append_drop]
    rw [h2] at hT
    refine ⟨_, _, c, T.take 21, T.drop 22, ?_, by rw [hr, ← hT], ?_, by decide +kernel, ?_⟩
    · rintro t ⟨⟩
      exact ⟨toyLayer_delivers, rfl, 7, rfl⟩
    · rw [List.getLast?_drop, if_neg (by omega)]
      exact h3
    · rw [← hT, h4]
      rintro kr rfl
      refine ⟨[[67], [32], [67], [122], [13]], 12, ?_, by decide +kernel⟩
      exact .cons (r := [1, 67]) (k' := 8) (by decide +kernel) (.cons (r := [1, 32]) (k' := 9) (by decide +kernel)
        (.cons (r := [1, 67]) (k' := 10) (by decide +kernel) (.cons (r := [1, 122]) (k' := 11) (by decide +kernel)
          (.cons (r := [1, 13]) (k' := 12) (by decide +kernel) (.nil _)))))

end ImapFlow
