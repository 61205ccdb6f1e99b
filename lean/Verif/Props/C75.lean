import Verif.Proofs.Accepted
import Verif.Spec.AcceptedSamples

/-!
# C75: after `encrypt` has failed, a stream with TLS goes on without losing anything else

C48 without the condition that nothing was refused.
-/

namespace ImapFlow

variable {K σ ε ev ι : Type}

/-- What was written to the socket, the write buffer and the records that wait in the connection are together records that a peer
with the matching key opens to the outputs of the state: whole outputs, and proper beginnings of those that were refused. -/
theorem C75_output {M : Machine σ ε ev ι} {t : Tls K} {paired : K → K → Prop} (hD : t.layer.Delivers paired) {kr : K}
    (hk : paired t.writeKey kr) (hs : t.sendable = []) {s : σ} {as : List (StreamAct ι)} {c : FullStream K σ}
    {T : List (FullItem ε ev ι)} (h : FullStream.run M (.secure t s) as = some (c, T)) :
    ∃ (ds : List Bytes) (kr' : K),
      t.layer.Carries kr (streamWrote (streamPart T) ++ c.writeBuffer ++ c.waiting) (ds.map .data) kr' ∧
      Accepted T ds.flatten := by
  obtain ⟨⟨w, p, h1, h2, h3⟩, -⟩ := FullStream.run_push (paired := paired) h (by rintro _ ⟨⟩; exact hD) nofun nofun
  cases ht : c.tls with
  | none => rw [ht] at h1; exact h1.elim
  | some t' =>
    rw [ht] at h1
    obtain ⟨ds, kr', h4, rfl, -⟩ := h1.2.2 kr hk
    refine ⟨ds, kr', ?_, h3⟩
    rw [List.append_assoc, show c.writeBuffer ++ c.waiting = c.pending from rfl, h2]
    simpa [FullStream.pending, FullStream.waiting, FullStream.secure, hs] using h4

/-- While `next` only waits for input, all of this has been written. -/
theorem C75_waiting {M : Machine σ ε ev ι} {t : Tls K} {paired : K → K → Prop} (hD : t.layer.Delivers paired) {kr : K}
    (hk : paired t.writeKey kr) (hs : t.sendable = []) {s : σ} {as : List (StreamAct ι)} {c : FullStream K σ}
    {T : List (FullItem ε ev ι)} (h : FullStream.run M (.secure t s) as = some (c, T)) (hc : c.ctl = .at .reading) :
    ∃ (ds : List Bytes) (kr' : K), t.layer.Carries kr (streamWrote (streamPart T)) (ds.map .data) kr' ∧
      Accepted T ds.flatten := by
  obtain ⟨-, h1, -⟩ := FullStream.run_push (paired := paired) h (by rintro _ ⟨⟩; exact hD) nofun nofun
  have h2 := C75_output hD hk hs h
  rwa [List.append_assoc, show c.writeBuffer ++ c.waiting = c.pending from rfl, h1 hc, List.append_nil] at h2

/-- When `flush` succeeds, all of this has been written. -/
theorem C75_flush {M : Machine σ ε ev ι} {t : Tls K} {paired : K → K → Prop} (hD : t.layer.Delivers paired) {kr : K}
    (hk : paired t.writeKey kr) (hs : t.sendable = []) {s : σ} {as : List (StreamAct ι)} {c : FullStream K σ}
    {pre post : List (FullItem ε ev ι)}
    (h : FullStream.run M (.secure t s) as = some (c, pre ++ .stream (.flushed (.ok ())) :: post)) :
    ∃ (ds : List Bytes) (kr' : K), t.layer.Carries kr (streamWrote (streamPart pre)) (ds.map .data) kr' ∧
      Accepted pre ds.flatten := by
  obtain ⟨as1, a, as2, c1, c2, T1, T2, q, q', -, h1, h2, -, rfl, -⟩ := FullStream.run_split h
  obtain ⟨⟨w, p, g1, -, -⟩, -, g2, -⟩ := FullStream.run_push (paired := paired) h1 (by rintro _ ⟨⟩; exact hD) nofun nofun
  obtain ⟨hp, rfl⟩ := (FullStream.step_cases h2).flushed_all (g1.layered (by rintro _ ⟨⟩; exact hD)) g2
  obtain ⟨ds, kr', e1, e2⟩ := C75_output hD hk hs (FullStream.run_snoc h1 h2)
  rw [List.append_assoc, show c2.writeBuffer ++ c2.waiting = c2.pending from rfl, hp, List.append_nil, ← List.append_assoc,
    streamPart_append, streamWrote_append] at e1
  rw [← List.append_assoc] at e2
  exact ⟨ds, kr', by simpa [streamPart, streamWrote, FullItem.stream?] using e1, e2.unsnoc nofun nofun⟩

/-- If nothing was refused these are all outputs, whole and in order. -/
theorem C75_whole {T : List (FullItem ε ev ι)} {p : Bytes} (hr : .refused ∉ T) :
    Accepted T p ↔ p = streamOutput (streamPart T) := accepted_whole hr

/-- An output that fits can be refused, too: the records of an output that was refused before still wait in the connection.  Nothing
of it is sent, but the client reports the command as sent: after `flush` has succeeded the peer has got nothing but the first
command and the beginning of the second one. -/
theorem C75_fitting : ∃ (t : Tls Nat) (as : List (StreamAct ClientOp)) (c : FullStream Nat Client)
    (pre post : List (FullItem ClientError ClientEvent ClientOp)),
    t.layer.Delivers (· = ·) ∧ t.sendable = [] ∧ (wire (Toy.lib.encodeCommand ClientSample.cmdC)).length ≤ t.limit ∧
    FullStream.run (clientMachine Toy.lib) (.secure t (Client.new ClientSample.g .default)) as =
      some (c, pre ++
        [.stream (.poll (.error (.io (.output (wire (Toy.lib.encodeCommand ClientSample.cmdC)))))), .refused] ++ post) ∧
    .stream (.returned (.ok (.commandSent ClientSample.hC ClientSample.cmdC))) ∈ post ∧
    post.getLast? = some (.stream (.flushed (.ok ()))) ∧ c.writeBuffer = [] ∧ c.waiting = [] ∧
    ∃ (ds : List Bytes) (kr' : Nat), t.layer.Carries t.writeKey
      (streamWrote (streamPart (pre ++
        [.stream (.poll (.error (.io (.output (wire (Toy.lib.encodeCommand ClientSample.cmdC)))))), .refused] ++ post)))
      (ds.map .data) kr' ∧
      ds.flatten = wire (Toy.lib.encodeCommand ClientSample.cmdC) ++ ClientSample.str "D Czz\r" := by
  have hrun : ((FullStream.run (clientMachine Toy.lib) (.secure AcceptedSample.tls (Client.new ClientSample.g .default))
      (AcceptedSample.acts.take 12 ++ [.callNext, .callFlush, .write 21])).map fun x => (x.2, x.1.writeBuffer, x.1.waiting)) =
      some (AcceptedSample.items.take 24 ++
        [.stream (.poll (.error (.io (.output (wire (Toy.lib.encodeCommand ClientSample.cmdC)))))), .refused] ++
        AcceptedSample.rest, [], []) := by decide +kernel
  cases hr : FullStream.run (clientMachine Toy.lib) (.secure AcceptedSample.tls (Client.new ClientSample.g .default))
      (AcceptedSample.acts.take 12 ++ [.callNext, .callFlush, .write 21]) with
  | none => rw [hr] at hrun; cases hrun
  | some x =>
    rw [hr] at hrun
    simp only [Option.map_some, Option.some.injEq, Prod.mk.injEq] at hrun
    refine ⟨AcceptedSample.tls, _, x.1, _, AcceptedSample.rest, toyLayer_delivers, rfl, by decide +kernel, by rw [hr, ← hrun.1],
      by decide +kernel, by decide +kernel, hrun.2.1, hrun.2.2, ?_⟩
    refine ⟨(ClientSample.str "C Cz\r\nD Czz\r").map fun b => [b], 19, ?_, by decide +kernel⟩
    have h := AcceptedSample.carries (ClientSample.str "C Cz\r\nD Czz\r") 7
    have e : streamWrote (streamPart (AcceptedSample.items.take 24 ++
        [.stream (.poll (.error (.io (.output (wire (Toy.lib.encodeCommand ClientSample.cmdC)))))), .refused] ++
        AcceptedSample.rest)) = (ClientSample.str "C Cz\r\nD Czz\r").flatMap fun b => [1, b] := by decide +kernel
    rw [e]
    exact h

/-- In the sample the peer gets the first command, the first six bytes of the second one, and nothing of the third one. -/
example : ∃ (ds : List Bytes) (kr' : Nat),
    toyLayer.Carries 7 (streamWrote (streamPart AcceptedSample.items)) (ds.map .data) kr' ∧ Accepted AcceptedSample.items ds.flatten := by
  obtain ⟨c, h⟩ := AcceptedSample.items_run
  exact C75_flush (t := AcceptedSample.tls) toyLayer_delivers (kr := 7) rfl rfl h

example : Accepted AcceptedSample.items (ClientSample.str "C Cz\r\nD Czz\r") ∧
    AcceptedSample.items.count .refused = 2 ∧
    streamWrote (streamPart AcceptedSample.items) =
      (ClientSample.str "C Cz\r\nD Czz\r").flatMap fun b => [1, b] := by
  refine ⟨?_, by decide +kernel, by decide +kernel⟩
  simp only [AcceptedSample.items, List.map_cons, List.map_nil, List.cons_append, List.nil_append]
  iterate 10 refine .other nofun ?_
  refine .whole (b := ClientSample.str "C Cz\r\n") (p := ClientSample.str "D Czz\r") nofun ?_
  iterate 6 refine .other nofun ?_
  refine .part (q := ClientSample.str "D Czz\r") (p := []) (by decide +kernel) (by decide +kernel) ?_
  iterate 5 refine .other nofun ?_
  refine .part (q := []) (p := []) (by decide +kernel) (by decide +kernel) ?_
  iterate 4 refine .other nofun ?_
  exact .nil

end ImapFlow
