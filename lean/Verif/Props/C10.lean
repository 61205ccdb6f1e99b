import Verif.Proofs.ClientReads
import Verif.Spec.ClientSamples
import Verif.Proofs.ServerReads
import Verif.Spec.ServerSamples

/-!
# C10: a complete buffered message is never withheld
-/

namespace ImapFlow

/-- After the greeting, the client asks for more input only if the unread input is an unfinished
response: an unfinished line or an unfinished literal. -/
theorem C10_client_starved {L : Lib} (hL : L.Lawful) {g : HandleGenerator} {o : ClientOptions}
    {ops : List ClientOp} {c : Client} {T1 T2 : List CItem}
    (h : (Client.new g o).trace L ops = .ok (c, T1 ++ .starved :: T2)) :
    (clientGreeted T1 → IsUnfinished (responseFraming L o.crlfRelaxed) (clientUnread T1)) ∧
    (¬ clientGreeted T1 → IsUnfinished (greetingFraming L o.crlfRelaxed) (clientUnread T1)) := by
  obtain ⟨c1, hinv⟩ := Client.trace_prefix_inv hL h
  obtain ⟨-, rest, h1, h2, h3⟩ := Client.trace_guard hL h
  have hgr := ClientView.of_greeted T1
  have he : rest = clientUnread T1 := by
    have := Client.of_given (w := []) (rest := rest) hinv (by simpa using h1)
    simpa using this
  rw [← he]
  refine ⟨fun hg => h3 (hgr.mpr hg), fun hg => h2 ?_⟩
  cases hh : (ClientView.of T1).greeted with
  | false => rfl
  | true => exact (hg (hgr.mp hh)).elim

/-- So the client does not ask for more input if the unread input starts with a complete response, an
undecodable line, or a line with a forbidden ending. -/
theorem C10_client_not_withheld {L : Lib} (hL : L.Lawful) {g : HandleGenerator} {o : ClientOptions}
    {ops : List ClientOp} {c : Client} {T1 T2 : List CItem} {w : Bytes}
    (hg : clientGreeted T1) (hw : w <+: clientUnread T1)
    (hc : (∃ r, IsMessage (responseFraming L o.crlfRelaxed) w r) ∨
      (∃ e, IsUndecodable (responseFraming L o.crlfRelaxed) w e) ∨
      IsBadLine (responseFraming L o.crlfRelaxed) w) :
    (Client.new g o).trace L ops ≠ .ok (c, T1 ++ .starved :: T2) := by
  intro h
  have hu := (C10_client_starved hL h).1 hg
  have hcomp : Complete (responseFraming L o.crlfRelaxed) w := by
    rcases hc with ⟨r, hc⟩ | ⟨e, hc⟩ | hc
    · exact hc.complete
    · exact hc.complete
    · exact hc.complete
  exact hcomp.not_unfinished hw hu

/-- The same for the greeting. -/
theorem C10_client_greeting_not_withheld {L : Lib} (hL : L.Lawful) {g : HandleGenerator} {o : ClientOptions}
    {ops : List ClientOp} {c : Client} {T1 T2 : List CItem} {w : Bytes}
    (hg : ¬ clientGreeted T1) (hw : w <+: clientUnread T1)
    (hc : (∃ r, IsMessage (greetingFraming L o.crlfRelaxed) w r) ∨
      (∃ e, IsUndecodable (greetingFraming L o.crlfRelaxed) w e) ∨
      IsBadLine (greetingFraming L o.crlfRelaxed) w) :
    (Client.new g o).trace L ops ≠ .ok (c, T1 ++ .starved :: T2) := by
  intro h
  have hu := (C10_client_starved hL h).2 hg
  have hcomp : Complete (greetingFraming L o.crlfRelaxed) w := by
    rcases hc with ⟨r, hc⟩ | ⟨e, hc⟩ | hc
    · exact hc.complete
    · exact hc.complete
    · exact hc.complete
  exact hcomp.not_unfinished hw hu

/-- And what the client reads is that message: a complete response at the start of the unread input is
what the next reading item is about. -/
theorem C10_client_reads_it {L : Lib} (hL : L.Lawful) {g : HandleGenerator} {o : ClientOptions}
    {ops : List ClientOp} {c : Client} {T1 T2 : List CItem} {i : CItem} {w : Bytes} {r : Response}
    (h : (Client.new g o).trace L ops = .ok (c, T1 ++ i :: T2)) (hg : clientGreeted T1)
    (hw : w <+: clientUnread T1) (hm : IsMessage (responseFraming L o.crlfRelaxed) w r)
    (hi : i.taken ≠ []) :
    i = .released w ∨ ∃ e, (ClientView.of T1).route r = some e ∧ i = .received w e := by
  obtain ⟨c1, hinv⟩ := Client.trace_prefix_inv hL h
  have hgd := Client.trace_guard hL h
  obtain ⟨h1, -, h2⟩ := Client.taken_complete hinv hgd hi
  have he : i.taken = w := (h2 hg).unique hm.complete h1 hw
  have hgr := (ClientView.of_greeted T1).mpr hg
  cases i with
  | received w' e =>
    obtain ⟨-, -, ⟨h3, -⟩ | ⟨-, r', h4, h3⟩⟩ := hgd
    · rw [hgr] at h3; cases h3
    · rw [show w' = w from he] at h3 ⊢
      rw [h3.det hm] at h4
      exact .inr ⟨e, h4, rfl⟩
  | released w' => rw [show w' = w from he]; exact .inl rfl
  | failed e =>
    obtain ⟨-, -, -, h3⟩ := hgd
    rcases h3 hgr with ⟨w', x, rfl, h4⟩ | ⟨w', rfl, h4⟩
    · rw [show w' = w from he] at h4
      exact (hm.not_undecodable h4).elim
    · rw [show w' = w from he] at h4
      exact (h4.not_message hm).elim
  | _ => exact (hi rfl).elim

/-- A client that asks for more input three times: before the greeting, with nothing unread, and with
the unfinished line `*d`. -/
example : ∃ c, (Client.new ClientSample.g .default).trace Toy.lib ClientSample.literalOps =
      .ok (c, ClientSample.literalTrace) ∧
    ClientSample.literalTrace[13]? = some .starved ∧
    clientUnread (ClientSample.literalTrace.take 13) = ClientSample.str "*d" := by
  obtain ⟨c, h⟩ := ClientSample.literal_run
  exact ⟨c, h, by decide +kernel, by decide +kernel⟩

/-- Server: it asks for more input only if the unread input is an unfinished message of the current
phase below the size limit, or it waits for the user to decide about an IDLE. -/
theorem C10_server_starved {L : Lib} {g : HandleGenerator} {o : ServerOptions} {gr : Greeting}
    {ops : List ServerOp} {s : Server} {T1 T2 : List SItem}
    (h : (Server.new g o gr).trace L ops = .ok (s, T1 ++ .starved :: T2)) :
    serverPhase T1 = .idlePending ∨
      ((serverPhase T1).Unfinished L o (serverUnread T1) ∧ (serverUnread T1).length < o.maxCommandSize) := by
  obtain ⟨-, hs, -⟩ := Server.trace_guard h
  rw [ServerView.of_phase, ServerView.of_unread] at hs
  generalize serverPhase T1 = ph at hs
  cases ph with
  | command => exact .inr hs
  | authenticate => exact .inr hs
  | idlePending => exact .inl rfl
  | idle => exact .inr hs

/-- So the server does not ask for more input if the unread input starts with a complete message (or
rejected line) of the phase, or has reached the limit. -/
theorem C10_server_not_withheld {L : Lib} {g : HandleGenerator} {o : ServerOptions} {gr : Greeting}
    {ops : List ServerOp} {s : Server} {T1 T2 : List SItem}
    (hp : serverPhase T1 ≠ .idlePending)
    (hw : (∃ w, w <+: serverUnread T1 ∧ (serverPhase T1).IsUnit L o w) ∨
      o.maxCommandSize ≤ (serverUnread T1).length) :
    (Server.new g o gr).trace L ops ≠ .ok (s, T1 ++ .starved :: T2) := by
  intro h
  rcases C10_server_starved h with hx | ⟨h1, h2⟩
  · exact hp hx
  · rcases hw with ⟨w, hw, hu⟩ | hw
    · exact hu.complete.not_unfinished hw h1
    · omega

/-- And what the server reads is that message. -/
theorem C10_server_reads_it {L : Lib} {g : HandleGenerator} {o : ServerOptions} {gr : Greeting}
    {ops : List ServerOp} {s : Server} {T1 T2 : List SItem} {i : SItem} {w : Bytes} {e : ServerEvent}
    (h : (Server.new g o gr).trace L ops = .ok (s, T1 ++ i :: T2))
    (hw : w <+: serverUnread T1) (ht : Taken L o (serverPhase T1) w e) (hm : w.length ≤ o.maxCommandSize)
    (hi : i.reads = true) : i = .received w e := by
  obtain ⟨h1, h2⟩ := Server.reads_unit h hw ht.complete hm hi
  have hg := Server.trace_guard h
  have hph := ServerView.of_phase gr T1
  have notDiscarded : ∀ {ε μ : Type} {F : Framing ε μ} {e : ServerError} {max : Nat} {m : μ}, IsMessage F w m →
      e.bytes = w → (∀ w', e ≠ .commandTooLong w') → ¬ DiscardedAs F max e := by
    intro ε μ F e max m hm he hn hd
    cases e with
    | expectedCrlfGotLf w' =>
      have := hd.1
      rw [show w' = w from he] at this
      exact this.not_message hm
    | malformedMessage w' =>
      obtain ⟨⟨x, hx⟩, -⟩ := hd
      rw [show w' = w from he] at hx
      exact hm.not_undecodable hx
    | commandTooLong w' => exact hn w' rfl
    | literalTooLong w' => exact hd
  cases i with
  | received w' e' =>
    obtain ⟨-, -, -, ht', -⟩ := hg
    rw [hph] at ht'
    have he : w' = w := h1
    subst he
    congr 1
    generalize serverPhase T1 = ph at ht ht'
    cases ph with
    | command =>
      obtain ⟨c, hc, rfl⟩ := ht
      obtain ⟨c', hc', rfl⟩ := ht'
      rw [hc.det hc']
    | authenticate =>
      obtain ⟨c, hc, rfl⟩ := ht
      obtain ⟨c', hc', rfl⟩ := ht'
      rw [hc.det hc']
    | idlePending => exact ht.elim
    | idle => rw [ht.2, ht'.2]
  | failed e' rs =>
    exfalso
    obtain ⟨-, -, hd, -⟩ := hg
    rw [hph] at hd
    have he : e'.bytes = w := h1
    have hn : ∀ w', e' ≠ .commandTooLong w' := fun w' hx => h2 w' rs (by rw [hx])
    generalize serverPhase T1 = ph at ht hd
    cases ph with
    | command =>
      obtain ⟨c, hc, -⟩ := ht
      cases e' with
      | expectedCrlfGotLf w' =>
        have := hd.2.1
        rw [show w' = w from he] at this
        exact this.not_message hc
      | malformedMessage w' =>
        obtain ⟨-, -, x, hx, -⟩ := hd
        rw [show w' = w from he] at hx
        exact hc.not_undecodable hx
      | commandTooLong w' => exact hn w' rfl
      | literalTooLong w' =>
        obtain ⟨-, tag, k, mode, hx, -⟩ := hd
        rw [show w' = w from he] at hx
        exact hc.not_undecodable hx
    | authenticate =>
      obtain ⟨c, hc, -⟩ := ht
      exact notDiscarded hc he hn hd.2
    | idlePending => exact ht
    | idle => exact notDiscarded ht.1 he hn hd.2
  | _ => cases hi

/-- A server that asks for more input in the middle of a literal, and one that does although DONE is
buffered because the user has not decided about the IDLE. -/
example : ServerSample.commandTrace[6]? = some .starved ∧
    serverUnread (ServerSample.commandTrace.take 6) = ClientSample.ln "A{xx" ∧
    ServerSample.authIdleTrace[17]? = some .starved ∧
    serverPhase (ServerSample.authIdleTrace.take 17) = .idlePending ∧
    ClientSample.ln "D" <+: serverUnread (ServerSample.authIdleTrace.take 17) := by
  decide +kernel

end ImapFlow
