import Verif.Proofs.ClientReads
import Verif.Spec.ClientSamples
import Verif.Proofs.ServerReads
import Verif.Spec.ServerSamples

/-!
# C04: strict mode never accepts a bare LF line ending, relaxed mode accepts both
-/

namespace ImapFlow

theorem CrlfOk.strict {l : Bytes} (h : CrlfOk false l) : ∃ b, l = b ++ [CR, LF] := by
  rcases h with h | h
  · cases h
  · exact h

/-- In strict mode everything that is decoded ends with CRLF. -/
theorem C04_client_strict_crlf {L : Lib} (hL : L.Lawful) {g : HandleGenerator} {o : ClientOptions}
    {ops : List ClientOp} {c : Client} {T : List CItem} {w : Bytes}
    (h : (Client.new g o).trace L ops = .ok (c, T)) (hs : o.crlfRelaxed = false)
    (hw : (∃ e, CItem.received w e ∈ T) ∨ CItem.released w ∈ T ∨ CItem.failed (.malformedMessage w) ∈ T) :
    ∃ b, w = b ++ [CR, LF] := by
  have key : ∀ {ε μ : Type} {F : Framing ε μ} {p l : Bytes}, w = p ++ l → F.relaxed = o.crlfRelaxed →
      CrlfOk F.relaxed l → ∃ b, w = b ++ [CR, LF] := by
    intro ε μ F p l h1 h2 h3
    rw [h2, hs] at h3
    obtain ⟨b, rfl⟩ := h3.strict
    exact ⟨p ++ b, by rw [h1, List.append_assoc]⟩
  rcases hw with ⟨e, hw⟩ | hw | hw
  · obtain ⟨T1, T2, rfl⟩ := List.append_of_mem hw
    obtain ⟨-, -, ⟨-, gr, h1, p, l, h2, -, -, h3, -⟩ | ⟨-, r, h1, p, l, h2, -, -, h3, -⟩⟩ :=
      Client.trace_guard hL h
    · exact key h2 rfl h3
    · exact key h2 rfl h3
  · obtain ⟨T1, T2, rfl⟩ := List.append_of_mem hw
    obtain ⟨-, -, -, q, -, p, l, h2, -, -, h3, -⟩ := Client.trace_guard hL h
    exact key h2 rfl h3
  · obtain ⟨T1, T2, rfl⟩ := List.append_of_mem hw
    obtain ⟨-, -, h1, h2⟩ := Client.trace_guard hL h
    cases hg : (ClientView.of T1).greeted with
    | false =>
      rcases h1 hg with ⟨w', x, h3, p, l, h2, -, -, h4, -⟩ | ⟨w', h3, -⟩
      · cases h3; exact key h2 rfl h4
      · cases h3
    | true =>
      rcases h2 hg with ⟨w', x, h3, p, l, h2, -, -, h4, -⟩ | ⟨w', h3, -⟩
      · cases h3; exact key h2 rfl h4
      · cases h3

/-- `ExpectedCrlfGotLf` is reported in strict mode only, and its bytes end with a line whose LF is not
preceded by CR in that line. -/
theorem C04_client_bad_line {L : Lib} (hL : L.Lawful) {g : HandleGenerator} {o : ClientOptions}
    {ops : List ClientOp} {c : Client} {T : List CItem} {w : Bytes}
    (h : (Client.new g o).trace L ops = .ok (c, T)) (hw : CItem.failed (.expectedCrlfGotLf w) ∈ T) :
    o.crlfRelaxed = false ∧ ∃ p l, w = p ++ l ∧ IsLine l ∧ ¬ ∃ b, l = b ++ [CR, LF] := by
  have key : ∀ {ε μ : Type} {F : Framing ε μ}, F.relaxed = o.crlfRelaxed → IsBadLine F w →
      o.crlfRelaxed = false ∧ ∃ p l, w = p ++ l ∧ IsLine l ∧ ¬ ∃ b, l = b ++ [CR, LF] := by
    rintro ε μ F h1 ⟨p, l, h2, -, h3, h4⟩
    unfold CrlfOk at h4
    rw [not_or, h1] at h4
    exact ⟨by simpa using h4.1, p, l, h2, h3, h4.2⟩
  obtain ⟨T1, T2, rfl⟩ := List.append_of_mem hw
  obtain ⟨-, -, h1, h2⟩ := Client.trace_guard hL h
  cases hg : (ClientView.of T1).greeted with
  | false =>
    rcases h1 hg with ⟨w', x, h3, -⟩ | ⟨w', h3, h4⟩
    · cases h3
    · cases h3; exact key rfl h4
  | true =>
    rcases h2 hg with ⟨w', x, h3, -⟩ | ⟨w', h3, h4⟩
    · cases h3
    · cases h3; exact key rfl h4

/-- If the unread input starts with a line with a forbidden ending (possibly after literals of the same
message), the next thing the client reads is exactly the error for it. -/
theorem C04_client_rejects {L : Lib} (hL : L.Lawful) {g : HandleGenerator} {o : ClientOptions}
    {ops : List ClientOp} {c : Client} {T1 T2 : List CItem} {i : CItem} {w : Bytes}
    (h : (Client.new g o).trace L ops = .ok (c, T1 ++ i :: T2)) (hg : clientGreeted T1)
    (hw : w <+: clientUnread T1) (hb : IsBadLine (responseFraming L o.crlfRelaxed) w)
    (hi : i.taken ≠ []) : i = .failed (.expectedCrlfGotLf w) := by
  obtain ⟨c1, hinv⟩ := Client.trace_prefix_inv hL h
  have hgd := Client.trace_guard hL h
  obtain ⟨h1, -, h2⟩ := Client.taken_complete hinv hgd hi
  have he : i.taken = w := (h2 hg).unique hb.complete h1 hw
  have hgr := (ClientView.of_greeted T1).mpr hg
  cases i with
  | received w' e =>
    obtain ⟨-, -, ⟨h3, -⟩ | ⟨-, r, -, h3⟩⟩ := hgd
    · rw [hgr] at h3; cases h3
    · rw [show w' = w from he] at h3
      exact (hb.not_message h3).elim
  | released w' =>
    obtain ⟨-, -, -, q, -, h3⟩ := hgd
    rw [show w' = w from he] at h3
    exact (hb.not_message h3).elim
  | failed e =>
    obtain ⟨-, -, -, h3⟩ := hgd
    rcases h3 hgr with ⟨w', x, rfl, h4⟩ | ⟨w', rfl, h4⟩
    · rw [show w' = w from he] at h4
      exact (hb.not_undecodable h4).elim
    · rw [show w' = w from he]
  | _ => exact (hi rfl).elim

/-- The same before the greeting. -/
theorem C04_client_rejects_greeting {L : Lib} (hL : L.Lawful) {g : HandleGenerator} {o : ClientOptions}
    {ops : List ClientOp} {c : Client} {T1 T2 : List CItem} {i : CItem} {w : Bytes}
    (h : (Client.new g o).trace L ops = .ok (c, T1 ++ i :: T2)) (hg : ¬ clientGreeted T1)
    (hw : w <+: clientUnread T1) (hb : IsBadLine (greetingFraming L o.crlfRelaxed) w)
    (hi : i.taken ≠ []) : i = .failed (.expectedCrlfGotLf w) := by
  obtain ⟨c1, hinv⟩ := Client.trace_prefix_inv hL h
  have hgd := Client.trace_guard hL h
  obtain ⟨h1, h2, -⟩ := Client.taken_complete hinv hgd hi
  have he : i.taken = w := (h2 hg).unique hb.complete h1 hw
  have hgr : ¬ (ClientView.of T1).greeted = true := fun hh => hg ((ClientView.of_greeted T1).mp hh)
  cases i with
  | received w' e =>
    obtain ⟨-, -, ⟨-, r, -, h3⟩ | ⟨h3, -⟩⟩ := hgd
    · rw [show w' = w from he] at h3
      exact (hb.not_message h3).elim
    · exact (hgr h3).elim
  | released w' => exact (hgr hgd.1).elim
  | failed e =>
    obtain ⟨-, -, h3, -⟩ := hgd
    rcases h3 (by simpa using hgr) with ⟨w', x, rfl, h4⟩ | ⟨w', rfl, h4⟩
    · rw [show w' = w from he] at h4
      exact (hb.not_undecodable h4).elim
    · rw [show w' = w from he]
  | _ => exact (hi rfl).elim

/-- In strict mode the bare LF line is discarded, in relaxed mode it is delivered. -/
example : ∃ c c', (Client.new ClientSample.g .default).trace Toy.lib ClientSample.badOps =
      .ok (c, ClientSample.badTrace) ∧
    (Client.new ClientSample.g { crlfRelaxed := true }).trace Toy.lib ClientSample.badOps =
      .ok (c', ClientSample.relaxedTrace) ∧
    .failed (.expectedCrlfGotLf (ClientSample.str "*bad\n")) ∈ ClientSample.badTrace ∧
    .received (ClientSample.str "*bad\n") (.dataReceived (.other (ClientSample.str "bad"))) ∈
      ClientSample.relaxedTrace := by
  obtain ⟨c, h⟩ := ClientSample.bad_run
  obtain ⟨c', h'⟩ := ClientSample.relaxed_run
  exact ⟨c, c', h, h', by decide +kernel, by decide +kernel⟩

/-- Server: in strict mode everything that is decoded ends with CRLF. -/
theorem C04_server_strict_crlf {L : Lib} {g : HandleGenerator} {o : ServerOptions} {gr : Greeting}
    {ops : List ServerOp} {s : Server} {T : List SItem} {w : Bytes}
    (h : (Server.new g o gr).trace L ops = .ok (s, T)) (hs : o.crlfRelaxed = false)
    (hw : (∃ e, SItem.received w e ∈ T) ∨ (∃ rs, SItem.literal w rs ∈ T) ∨
      (∃ rs, SItem.failed (.malformedMessage w) rs ∈ T) ∨ ∃ rs, SItem.failed (.literalTooLong w) rs ∈ T) :
    ∃ b, w = b ++ [CR, LF] := by
  have key : ∀ {ε μ : Type} {F : Framing ε μ} {p l : Bytes}, w = p ++ l → F.relaxed = o.crlfRelaxed →
      CrlfOk F.relaxed l → ∃ b, w = b ++ [CR, LF] := by
    intro ε μ F p l h1 h2 h3
    rw [h2, hs] at h3
    obtain ⟨b, rfl⟩ := h3.strict
    exact ⟨p ++ b, by rw [h1, List.append_assoc]⟩
  rcases hw with ⟨e, hw⟩ | ⟨rs, hw⟩ | ⟨rs, hw⟩ | ⟨rs, hw⟩
  · obtain ⟨T1, T2, rfl⟩ := List.append_of_mem hw
    obtain ⟨-, -, -, ht, -⟩ := Server.trace_guard h
    unfold Taken at ht
    split at ht
    · obtain ⟨c, ⟨p, l, h1, -, -, h2, -⟩, -⟩ := ht; exact key h1 rfl h2
    · obtain ⟨c, ⟨p, l, h1, -, -, h2, -⟩, -⟩ := ht; exact key h1 rfl h2
    · exact ht.elim
    · obtain ⟨⟨p, l, h1, -, -, h2, -⟩, -⟩ := ht; exact key h1 rfl h2
  · obtain ⟨T1, T2, rfl⟩ := List.append_of_mem hw
    obtain ⟨-, -, -, -, -, tag, k, mode, ⟨p, l, e, h1, -, -, h2, -⟩, -⟩ := Server.trace_guard h
    exact key h1 rfl h2
  · obtain ⟨T1, T2, rfl⟩ := List.append_of_mem hw
    obtain ⟨-, -, hd, -⟩ := Server.trace_guard h
    unfold Discarded at hd
    split at hd
    · obtain ⟨-, -, x, ⟨p, l, h1, -, -, h2, -⟩, -⟩ := hd; exact key h1 rfl h2
    · obtain ⟨-, ⟨x, p, l, h1, -, -, h2, -⟩, -⟩ := hd; exact key h1 rfl h2
    · exact hd.elim
    · obtain ⟨-, ⟨x, p, l, h1, -, -, h2, -⟩, -⟩ := hd; exact key h1 rfl h2
  · obtain ⟨T1, T2, rfl⟩ := List.append_of_mem hw
    obtain ⟨-, -, hd, -⟩ := Server.trace_guard h
    unfold Discarded at hd
    split at hd
    · obtain ⟨-, tag, k, mode, ⟨p, l, h1, -, -, h2, -⟩, -⟩ := hd; exact key h1 rfl h2
    · exact hd.2.elim
    · exact hd.elim
    · exact hd.2.elim

/-- Server: `ExpectedCrlfGotLf` is reported in strict mode only, and its bytes end with a line whose LF
is not preceded by CR in that line. -/
theorem C04_server_bad_line {L : Lib} {g : HandleGenerator} {o : ServerOptions} {gr : Greeting}
    {ops : List ServerOp} {s : Server} {T : List SItem} {w : Bytes} {rs : List ServerMessage}
    (h : (Server.new g o gr).trace L ops = .ok (s, T)) (hw : SItem.failed (.expectedCrlfGotLf w) rs ∈ T) :
    o.crlfRelaxed = false ∧ rs = [] ∧ ∃ p l, w = p ++ l ∧ IsLine l ∧ ¬ ∃ b, l = b ++ [CR, LF] := by
  have key : ∀ {ε μ : Type} {F : Framing ε μ}, F.relaxed = o.crlfRelaxed → IsBadLine F w →
      o.crlfRelaxed = false ∧ ∃ p l, w = p ++ l ∧ IsLine l ∧ ¬ ∃ b, l = b ++ [CR, LF] := by
    rintro ε μ F h1 ⟨p, l, h2, -, h3, h4⟩
    unfold CrlfOk at h4
    rw [not_or, h1] at h4
    exact ⟨by simpa using h4.1, p, l, h2, h3, h4.2⟩
  obtain ⟨T1, T2, rfl⟩ := List.append_of_mem hw
  obtain ⟨-, -, hd, -⟩ := Server.trace_guard h
  unfold Discarded at hd
  split at hd
  · obtain ⟨h1, h2⟩ := key rfl hd.2.1; exact ⟨h1, hd.1, h2⟩
  · obtain ⟨h1, h2⟩ := key rfl hd.2.1; exact ⟨h1, hd.1, h2⟩
  · exact hd.elim
  · obtain ⟨h1, h2⟩ := key rfl hd.2.1; exact ⟨h1, hd.1, h2⟩

/-- Server: if the unread input starts with a line with a forbidden ending (possibly after literals of
the same command) within the size limit, the next thing the server reads is exactly the error for it. -/
theorem C04_server_rejects {L : Lib} {g : HandleGenerator} {o : ServerOptions} {gr : Greeting}
    {ops : List ServerOp} {s : Server} {T1 T2 : List SItem} {i : SItem} {w : Bytes}
    (h : (Server.new g o gr).trace L ops = .ok (s, T1 ++ i :: T2))
    (hw : w <+: serverUnread T1) (hm : w.length ≤ o.maxCommandSize)
    (hb : match serverPhase T1 with
      | .command => IsBadLine (commandFraming L o) w
      | .authenticate => IsBadLine (authenticateFraming L o) w
      | .idlePending => False
      | .idle => IsBadLine (idleFraming L o) w)
    (hi : i.reads = true) : i = .failed (.expectedCrlfGotLf w) [] := by
  have hu : (serverPhase T1).IsUnit L o w := by
    unfold ServerPhase.IsUnit
    generalize serverPhase T1 = ph at hb
    cases ph with
    | idlePending => exact hb
    | _ => exact .inr (.inr hb)
  obtain ⟨h1, h2⟩ := Server.reads_unit h hw hu.complete hm hi
  have hg := Server.trace_guard h
  have hph := ServerView.of_phase gr T1
  have bad : ∀ {ε μ : Type} {F : Framing ε μ} {e : ServerError} {max : Nat}, IsBadLine F w → e.bytes = w →
      (∀ w', e ≠ .commandTooLong w') → DiscardedAs F max e → e = .expectedCrlfGotLf w := by
    intro ε μ F e max hb he hn hd
    cases e with
    | expectedCrlfGotLf w' => rw [show w' = w from he]
    | malformedMessage w' =>
      obtain ⟨⟨x, hx⟩, -⟩ := hd
      rw [show w' = w from he] at hx
      exact (hb.not_undecodable hx).elim
    | commandTooLong w' => exact (hn w' rfl).elim
    | literalTooLong w' => exact hd.elim
  cases i with
  | received w' e =>
    obtain ⟨-, -, -, ht, -⟩ := hg
    rw [hph] at ht
    have he : w' = w := h1
    subst he
    generalize serverPhase T1 = ph at hb ht
    cases ph with
    | command => obtain ⟨c, hm, -⟩ := ht; exact (IsBadLine.not_message hb hm).elim
    | authenticate => obtain ⟨c, hm, -⟩ := ht; exact (IsBadLine.not_message hb hm).elim
    | idlePending => exact hb.elim
    | idle => exact (IsBadLine.not_message hb ht.1).elim
  | failed e rs =>
    obtain ⟨-, -, hd, -⟩ := hg
    rw [hph] at hd
    have he : e.bytes = w := h1
    have hn : ∀ w', e ≠ .commandTooLong w' := fun w' hx => h2 w' rs (by rw [hx])
    generalize serverPhase T1 = ph at hb hd
    cases ph with
    | command =>
      cases e with
      | expectedCrlfGotLf w' => rw [show w' = w from he, hd.1]
      | malformedMessage w' =>
        obtain ⟨-, -, x, hx, -⟩ := hd
        rw [show w' = w from he] at hx
        exact (IsBadLine.not_undecodable hb hx).elim
      | commandTooLong w' => exact (hn w' rfl).elim
      | literalTooLong w' =>
        obtain ⟨-, tag, k, mode, hx, -⟩ := hd
        rw [show w' = w from he] at hx
        exact (IsBadLine.not_undecodable hb hx).elim
    | authenticate => rw [hd.1, bad hb he hn hd.2]
    | idlePending => exact hb.elim
    | idle => rw [hd.1, bad hb he hn hd.2]
  | _ => cases hi

/-- The bare LF line `C Cbad` is rejected in strict mode. -/
example : ∃ T1 T2 : List SItem, ServerSample.commandTrace =
      T1 ++ .failed (.expectedCrlfGotLf (ClientSample.str "C Cbad\n")) [] :: T2 ∧
    ClientSample.str "C Cbad\n" <+: serverUnread T1 ∧ serverPhase T1 = .command ∧
    IsBadLine (commandFraming Toy.lib ServerSample.options) (ClientSample.str "C Cbad\n") :=
  ⟨ServerSample.commandTrace.take 23, ServerSample.commandTrace.drop 24, by decide +kernel, by decide +kernel,
    by decide +kernel, [], _, rfl, .nil, ⟨ClientSample.str "C Cbad", by decide +kernel, by decide +kernel⟩, by
      rintro (h | ⟨b, h⟩)
      · cases h
      · have := congrArg List.reverse h
        rw [List.reverse_append] at this
        revert this
        generalize b.reverse = r
        intro this
        have h2 := congrArg (fun x => x.drop 1 |>.head?) this
        revert h2
        simp
        decide +kernel⟩

end ImapFlow
