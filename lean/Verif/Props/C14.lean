import Verif.Proofs.ClientLiteral
import Verif.Spec.ClientSamples

/-!
# C14: a synchronizing literal is never sent before the server's continuation request
-/

namespace ImapFlow

/-- After every output of a regular command, the bytes output for it are the bytes of an initial part
`pre` of its fragments that contains exactly as many synchronizing literals as continuation requests
released for it, and that ends at the end of the command or right before a synchronizing literal (so
non-synchronizing literals do not stop it). -/
theorem C14_output_stops_at_literal {L : Lib} (hL : L.Lawful) {g : HandleGenerator} {o : ClientOptions}
    {ops : List ClientOp} {c : Client} {T1 T2 : List CItem} {b : Bytes} {h : RawHandle} {cmd : Command}
    (ht : (Client.new g o).trace L ops = .ok (c, T1 ++ .output b :: T2))
    (hcur : (ClientView.of (T1 ++ [.output b])).current = some (h, cmd)) (hr : cmd.isRegular = true) :
    ∃ pre post, L.encodeCommand cmd = pre ++ post ∧
      (ClientView.of (T1 ++ [.output b])).sent = wire pre ∧
      (ClientView.of (T1 ++ [.output b])).released = syncs pre ∧
      (post = [] ∨ ∃ d post', post = .literal d .sync :: post') := by
  obtain ⟨-, -, h', cmd', q', h1, h2⟩ := Client.trace_guard hL ht
  rw [ClientView.of_snoc] at hcur ⊢
  obtain ⟨q, hrem⟩ := ClientView.remaining_of_current hcur
  have hrem' : (ClientView.of T1).remaining = (h, cmd) :: q := hrem
  rw [hrem'] at h1
  cases h1
  obtain ⟨hn1, hn2⟩ := Command.regular_excl hr
  rcases h2 with ⟨-, -, pre, post, e1, e2, e3, e4⟩ | ⟨h3, -⟩ | ⟨h3, -⟩
  · exact ⟨pre, post, e1, e2, e3.symm, e4⟩
  · rw [hn1] at h3; cases h3
  · rw [hn2] at h3; cases h3

/-- A literal is released only by a continuation request that is received while it is pending. -/
theorem C14_release {L : Lib} (hL : L.Lawful) {g : HandleGenerator} {o : ClientOptions}
    {ops : List ClientOp} {c : Client} {T1 T2 : List CItem} {w : Bytes}
    (ht : (Client.new g o).trace L ops = .ok (c, T1 ++ .released w :: T2)) :
    (∃ h cmd d, PendingLiteral L (ClientView.of T1) h cmd d) ∧
    ∃ q, IsMessage (responseFraming L o.crlfRelaxed) w (.continuationRequest q) := by
  obtain ⟨-, hw, -, q, h1, h2⟩ := Client.trace_guard hL ht
  exact ⟨route_none hw h1, q, h2⟩

/-- A released literal is output next. -/
theorem C14_literal_follows {L : Lib} (hL : L.Lawful) {g : HandleGenerator} {o : ClientOptions}
    {ops : List ClientOp} {c : Client} {T1 U T2 : List CItem} {w d : Bytes} {h : RawHandle} {cmd : Command}
    {i : CItem} (ht : (Client.new g o).trace L ops = .ok (c, T1 ++ .released w :: (U ++ i :: T2)))
    (hp : PendingLiteral L (ClientView.of T1) h cmd d) (hd : d ≠ [])
    (hU : ∀ j ∈ U, j.isNext = false) (hi : i.isNext = true) : ∃ b, i = .output b ∧ d <+: b := by
  have hgr := (Client.trace_guard hL ht).1
  have h1 : ReleasedLiteral L (ClientView.of (T1 ++ [.released w])) h cmd d := by
    rw [ClientView.of_snoc]
    obtain ⟨e1, e2, pre, post, e3, e4, e5⟩ := hp
    exact ⟨hgr, e1, e2, pre, post, e3, e4, congrArg (· + 1) e5⟩
  have ht' : (Client.new g o).trace L ops = .ok (c, (T1 ++ [.released w]) ++ U ++ (i :: T2)) := by
    rw [ht]; simp
  have h2 := Client.skip hL (P := fun v => ReleasedLiteral L v h cmd d)
    (fun v i hp hg hi => hp.skip hg hi) ht' h1 hU
  exact h2.next hd (Client.trace_guard hL ht') hi

/-- `A` sends `A{xxx\r\n`, waits, is released by `+ok`, and then sends the literal. -/
example : ∃ c, (Client.new ClientSample.g .default).trace Toy.lib ClientSample.literalOps =
      .ok (c, ClientSample.literalTrace.take 9 ++ .released (ClientSample.ln "+ok") ::
        ([] ++ .output (ClientSample.str "x\ny" ++ ClientSample.ln "") :: ClientSample.literalTrace.drop 11)) ∧
    PendingLiteral Toy.lib (ClientView.of (ClientSample.literalTrace.take 9)) ClientSample.hA
      ClientSample.cmdA (ClientSample.str "x\ny") := by
  obtain ⟨c, h⟩ := ClientSample.literal_run
  refine ⟨c, h, by decide +kernel, by decide +kernel,
    [.line (ClientSample.ln "A{xxx")], [.line (ClientSample.ln "")], ?_, ?_, ?_⟩ <;> decide +kernel

/-- The first output of `A`. -/
example : ∃ c, (Client.new ClientSample.g .default).trace Toy.lib ClientSample.literalOps =
      .ok (c, ClientSample.literalTrace.take 6 ++ .output (ClientSample.ln "A{xxx") ::
        ClientSample.literalTrace.drop 7) ∧
    (ClientView.of (ClientSample.literalTrace.take 6 ++ [.output (ClientSample.ln "A{xxx")])).current =
      some (ClientSample.hA, ClientSample.cmdA) ∧ ClientSample.cmdA.isRegular = true := by
  obtain ⟨c, h⟩ := ClientSample.literal_run
  refine ⟨c, h, by decide +kernel, by decide +kernel⟩

end ImapFlow
