import Verif.Props.C42

/-!
# C45: what the proxy has received reaches the other side before it closes (false; what is true)

When `next` on the connection to the server returns an error, the loop in
`/repo/proxy/src/proxy.rs:222-235` ends and both streams are dropped.  Responses in the queue of the server
and in the write buffer of the stream are lost.
-/

namespace ImapFlow

variable {K : Type} {L : Lib} {tc ts : Option (Tls K)} {gc gs : HandleGenerator} {as : List ProxyAct} {p : Proxy K}
  {T : List ProxyItem}

/-- The claim for one run: if the conversation has ended although the client did nothing wrong (its connection
was neither closed nor failed), the forwarded responses have been written. -/
def ForwardedBeforeClose (L : Lib) (p : Proxy K) (T : List ProxyItem) : Prop :=
  p = .over → .client (.returned (.error .closed)) ∉ T → .client (.returned (.error .io)) ∉ T →
    ∀ r ∈ forwardedResponses T, wire (L.encodeResponse r) <:+: streamWrote (clientSide T)

/-- The claim is false: the server sends a response and closes the connection, and the client never gets the
response. -/
theorem C45_false : ¬ ∀ (L : Lib) (_ : L.Lawful) (_ : L.Proxyable) (gc gs : HandleGenerator) (as : List ProxyAct)
    (p : Proxy Nat) (T : List ProxyItem), (Proxy.start none none gc).run L gs as = some (p, T) → ForwardedBeforeClose L p T := by
  intro H
  have h : (ProxySample.run ProxySample.closed).map (fun x => (ProxySample.stage x.1, forwardedResponses x.2,
      streamWrote (clientSide x.2), decide (.client (.returned (.error .closed)) ∈ x.2 ∨
        .client (.returned (.error .io)) ∈ x.2))) =
    some (.over, [.data (.other (ClientSample.str "d"))], ClientSample.ln "G[CR]hi", false) := by decide +kernel
  obtain ⟨⟨p, T⟩, h1, h2⟩ := ProxySample.of_map h
  simp only [Prod.mk.injEq, decide_eq_false_iff_not, not_or] at h2
  obtain ⟨h0, h2, h3, h4, h5⟩ := h2
  obtain rfl := ProxySample.stage_over h0
  have h6 := H _ Toy.lawful Toy.proxyable _ _ _ _ _ h1 rfl h4 h5 (.data (.other (ClientSample.str "d")))
    (by rw [h2]; exact List.mem_cons_self)
  rw [h3] at h6
  obtain ⟨x, y, h6⟩ := h6
  have h7 : (42 : UInt8) ∈ x ++ wire (Toy.lib.encodeResponse (.data (.other (ClientSample.str "d")))) ++ y :=
    List.mem_append_left _ (List.mem_append_right _ (by decide +kernel))
  rw [h6] at h7
  revert h7
  decide +kernel

/-- What holds: at any time, what was handed out for the client is a beginning of: the restricted greeting and the
forwarded responses in order, mixed with replies of the proxy itself.  So only the last responses can be lost, and
the last one that arrives may be incomplete. -/
theorem C45_partial (hL : L.Lawful) (hP : L.Proxyable) (h : (Proxy.start tc ts gc).run L gs as = some (p, T)) :
    streamOutput (clientSide T) = [] ∨
    ∃ gr ms, (streamEvents (serverSide T)).head? = some (.greetingReceived gr) ∧
      ms.filterMap ServerMessage.user? = forwardedResponses T ∧
      (∀ m ∈ ms, m.user? = none → ∃ r, m = .response none r ∧ OwnReply r) ∧
      streamOutput (clientSide T) <+: (.greeting gr.restrict :: ms).flatMap (ServerMessage.bytes L) := by
  rcases C42_wire hL hP h with h0 | ⟨gr, ms, n, h1, h2, h3, -, h5⟩
  · exact .inl h0
  · refine .inr ⟨gr, ms, h1, h2, h3, ?_⟩
    rw [h5]
    refine ⟨((.greeting gr.restrict :: ms).drop n).flatMap (ServerMessage.bytes L), ?_⟩
    rw [← List.flatMap_append, List.take_append_drop]

/-- What was written to a socket without TLS is a beginning of this, too. -/
theorem C45_socket_partial (hL : L.Lawful) (hP : L.Proxyable) (h : (Proxy.start none ts gc).run L gs as = some (p, T)) :
    streamWrote (clientSide T) = [] ∨
    ∃ gr ms, (streamEvents (serverSide T)).head? = some (.greetingReceived gr) ∧
      ms.filterMap ServerMessage.user? = forwardedResponses T ∧
      (∀ m ∈ ms, m.user? = none → ∃ r, m = .response none r ∧ OwnReply r) ∧
      streamWrote (clientSide T) <+: (.greeting gr.restrict :: ms).flatMap (ServerMessage.bytes L) := by
  obtain ⟨-, w, hw⟩ := Proxy.run_client_plain hL hP h
  rcases C45_partial hL hP h with h0 | ⟨gr, ms, h1, h2, h3, h4⟩
  · exact .inl (List.append_eq_nil_iff.1 (hw.trans h0)).1
  · exact .inr ⟨gr, ms, h1, h2, h3, (List.prefix_append _ w).trans (hw ▸ h4)⟩

/-- The run of `C45_false`: the greeting was written, the response was not. -/
example : ∃ T, ProxySample.run ProxySample.closed = some (.over, T) ∧
    forwardedResponses T = [.data (.other (ClientSample.str "d"))] ∧
    streamWrote (clientSide T) = ClientSample.ln "G[CR]hi" :=
  ProxySample.run_closed

end ImapFlow
