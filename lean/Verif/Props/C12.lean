import Verif.Proofs.ClientNext
import Verif.Spec.ClientSamples

/-!
# C12: commands go on the wire in enqueue order, byte-exact and not interleaved
-/

namespace ImapFlow

/-- The output is the concatenation of one segment per ended command, in enqueue order, and the segment
of the command in progress.  The segment of the `n`-th ended command is determined by the `n`-th enqueued
command and the event that ended it (`EndedAs`); the open segment is a beginning of such a segment of the
next enqueued command (`OpenAs`). -/
theorem C12_output_segments {L : Lib} (hL : L.Lawful) {g : HandleGenerator} {o : ClientOptions}
    {ops : List ClientOp} {c : Client} {T : List CItem}
    (h : (Client.new g o).trace L ops = .ok (c, T)) :
    ∃ (ended : List ClientEnded) (openSegment : Bytes) (datas : List AuthenticateData),
      clientOutput T = ended.flatMap ClientEnded.sent ++ openSegment ∧
      ended.map ClientEnded.event = clientTerminals T ∧
      (∀ (n : Nat) en, ended[n]? = some en → ∃ x, (clientEnqueued T)[n]? = some x ∧ EndedAs L x en) ∧
      (openSegment ≠ [] → ∃ x, (clientEnqueued T)[ended.length]? = some x ∧ OpenAs L x openSegment datas) := by
  obtain ⟨h1, h2, h3, h4, h5⟩ := ClientView.of_fields T
  refine ⟨(ClientView.of T).ended, (ClientView.of T).sent, (ClientView.of T).datas, h5.symm, h4, ?_, ?_⟩
  · have := Client.trace_ended hL h
    rw [← h3]
    exact this
  · intro hs
    obtain ⟨x, e1, -, e2⟩ := (Client.trace_inv hL h).1.open hs
    rw [← h3]
    exact ⟨x, e1, e2⟩

/-- When nothing was rejected and only regular commands were enqueued, the output is a beginning of the
concatenated encodings. -/
theorem C12_output_prefix {L : Lib} (hL : L.Lawful) {g : HandleGenerator} {o : ClientOptions}
    {ops : List ClientOp} {c : Client} {T : List CItem}
    (h : (Client.new g o).trace L ops = .ok (c, T))
    (hreg : ∀ x ∈ clientEnqueued T, x.2.isRegular = true)
    (hrej : ∀ hd cmd st, .commandRejected hd cmd st ∉ clientTerminals T) :
    clientOutput T <+: (clientEnqueued T).flatMap fun x => wire (L.encodeCommand x.2) := by
  obtain ⟨ended, sg, datas, h1, h2, h3, h4⟩ := C12_output_segments hL h
  have key : ∀ (E : List (RawHandle × Command)) (en : List ClientEnded),
      (∀ x ∈ E, x.2.isRegular = true) → (∀ e ∈ en, ∀ hd cmd st, e.event ≠ .commandRejected hd cmd st) →
      (∀ (n : Nat) e, en[n]? = some e → ∃ x, E[n]? = some x ∧ EndedAs L x e) →
      (sg ≠ [] → ∃ x, E[en.length]? = some x ∧ OpenAs L x sg datas) →
      en.flatMap ClientEnded.sent ++ sg <+: E.flatMap fun x => wire (L.encodeCommand x.2) := by
    intro E en
    induction en generalizing E with
    | nil =>
      intro hr _ _ ho
      by_cases hs : sg = []
      · simp [hs]
      · obtain ⟨x, hx, hop⟩ := ho hs
        cases E with
        | nil => simp at hx
        | cons y E =>
          simp only [List.length_nil, List.getElem?_cons_zero, Option.some.injEq] at hx
          subst hx
          obtain ⟨b, hb⟩ := Command.body_of_regular (hr y (by simp))
          unfold OpenAs at hop
          rw [hb] at hop
          obtain ⟨pre, post, e1, e2, -⟩ := hop
          simp only [List.flatMap_nil, List.nil_append, List.flatMap_cons]
          rw [e1, wire_append, e2, List.append_assoc]
          exact List.prefix_append ..
    | cons e en ih =>
      intro hr hj hE ho
      cases E with
      | nil =>
        obtain ⟨x, hx, -⟩ := hE 0 e (by simp)
        simp at hx
      | cons y E =>
        have hrec := ih E (fun x hx => hr x (by simp [hx])) (fun e' he' => hj e' (by simp [he']))
          (fun n e' he' => by simpa using hE (n + 1) e' (by simpa using he')) (by simpa using ho)
        obtain ⟨x, hx, hen⟩ := hE 0 e (by simp)
        simp only [List.getElem?_cons_zero, Option.some.injEq] at hx
        subst hx
        obtain ⟨b, hb⟩ := Command.body_of_regular (hr y (by simp))
        unfold EndedAs at hen
        rw [hb] at hen
        rcases hen with ⟨-, e1⟩ | ⟨st, e1, -⟩
        · simp only [List.flatMap_cons, List.append_assoc]
          rw [e1, List.prefix_append_right_inj]
          exact hrec
        · exact (hj e (by simp) _ _ _ e1).elim
  rw [h1]
  refine key _ _ hreg (fun e he hd cmd st hev => ?_) h3 h4
  refine hrej hd cmd st ?_
  rw [← h2, ← hev]
  exact List.mem_map_of_mem he

/-- Three commands: the first is sent completely, the second is refused at its literal, the third is
sent completely. -/
example : ∃ c, (Client.new ClientSample.g .default).trace Toy.lib ClientSample.literalOps =
      .ok (c, ClientSample.literalTrace) ∧
    clientOutput ClientSample.literalTrace =
      wire (Toy.lib.encodeCommand ClientSample.cmdA) ++ ClientSample.ln "B{xxx" ++
      wire (Toy.lib.encodeCommand ClientSample.cmdC) := by
  obtain ⟨c, h⟩ := ClientSample.literal_run
  exact ⟨c, h, by decide +kernel⟩

end ImapFlow
