import Verif.Proofs.ProxyWire
import Verif.Props.C19
import Verif.Props.C43

/-!
# The messages the proxy sends to its client
-/

namespace ImapFlow

variable {K : Type} {L : Lib} {tc ts : Option (Tls K)} {gc gs : HandleGenerator} {as : List ProxyAct} {p : Proxy K}
  {T : List ProxyItem}

theorem proxyServerOptions_texts {o : ServerOptions} (h : proxyServerOptions L = .ok o) :
    o.literalAcceptText = .ok literalAcceptText ∧ o.literalRejectText = .ok literalRejectText := by
  simp only [proxyServerOptions] at h
  split at h
  · cases h
  split at h
  · cases h
  rename_i o1 r1 h1
  split at h
  · cases h
  rename_i u1 hu1
  split at h
  · cases h
  rename_i o2 r2 h2
  split at h
  · cases h
  rename_i u2 hu2
  cases h
  rcases C43_set_accept L _ literalAcceptText with ⟨-, o', h3, h4, -⟩ | ⟨-, h3⟩
  · cases h1.symm.trans h3
    rcases C43_set_reject L o1 literalRejectText with ⟨-, o', h5, h6, h7, -⟩ | ⟨-, h5⟩
    · cases h2.symm.trans h5
      exact ⟨by rw [ServerOptions.literalAcceptText, h7]; exact h4, h6⟩
    · cases h2.symm.trans h5; cases hu2
  · cases h1.symm.trans h3; cases hu1

theorem acceptReply_ownReply {o : ServerOptions} (h : o.literalAcceptText = .ok literalAcceptText) (mode : LiteralMode) :
    ∀ m ∈ acceptReply L o mode, ∃ r, m = .response none r ∧ OwnReply r := by
  intro m hm
  unfold acceptReply at hm
  split at hm
  · cases hm
  · rw [h] at hm
    simp only [Lib.ccrBasicFromText] at hm
    split at hm
    · rename_i hx
      split at hx <;> cases hx
      rw [List.mem_singleton.mp hm]
      exact ⟨_, rfl, .inl rfl⟩
    · cases hm

theorem rejectReply_ownReply {o : ServerOptions} (h : o.literalRejectText = .ok literalRejectText) (tag : Tag)
    (mode : LiteralMode) : ∀ m ∈ rejectReply o tag mode, ∃ r, m = .response none r ∧ OwnReply r := by
  intro m hm
  unfold rejectReply at hm
  split at hm
  · cases hm
  · rw [h] at hm
    rw [List.mem_singleton.mp hm]
    exact ⟨_, rfl, .inr ⟨_, rfl⟩⟩

/-- Everything that the server sends on its own. -/
theorem own_messages {o : ServerOptions} {gr : Greeting} {ops : List ServerOp} {s : Server} {V : List SItem}
    (ho : proxyServerOptions L = .ok o) (h : (Server.new gs o gr).trace L ops = .ok (s, V)) :
    ∀ m ∈ V.flatMap SItem.enqueues, m.user? = none → ∃ r, m = .response none r ∧ OwnReply r := by
  obtain ⟨ha, hr⟩ := proxyServerOptions_texts ho
  intro m hm0 hu
  obtain ⟨i, hi, hm⟩ := List.mem_flatMap.mp hm0
  obtain ⟨V1, V2, rfl⟩ := List.append_of_mem hi
  have hg := Server.trace_guard h
  have user : ∀ {h r}, m = .response (some h) r → ∃ r, m = .response none r ∧ OwnReply r := by
    rintro h r rfl; cases hu
  cases i with
  | enqueue h r => exact user (List.mem_singleton.mp hm)
  | authContinue q r =>
    cases r with
    | ok h => exact user (List.mem_singleton.mp hm)
    | error e => cases hm
  | authFinish st r =>
    cases r with
    | ok h => exact user (List.mem_singleton.mp hm)
    | error e => cases hm
  | idleAccept q r =>
    cases r with
    | ok h => exact user (List.mem_singleton.mp hm)
    | error e => cases hm
  | idleReject st r =>
    cases r with
    | ok h => exact user (List.mem_singleton.mp hm)
    | error e => cases hm
  | literal q rs =>
    obtain ⟨-, -, -, -, -, tag, k, mode, -, -, rfl⟩ := hg
    exact acceptReply_ownReply ha mode m hm
  | failed e rs =>
    obtain ⟨-, -, hg, -⟩ := hg
    have hrs : rs = [] ∨ ∃ tag mode, rs = rejectReply o tag mode := by
      unfold Discarded at hg
      split at hg
      · split at hg
        · obtain ⟨-, tag, k, mode, -, -, rfl⟩ := hg; exact .inr ⟨_, _, rfl⟩
        · exact .inl hg.1
        · exact .inl hg.1
      · exact .inl hg.1
      · exact hg.elim
      · exact .inl hg.1
    rcases hrs with rfl | ⟨tag, mode, rfl⟩
    · cases hm
    · exact rejectReply_ownReply hr tag mode m hm
  | _ => cases hm

/-- The bytes handed out for the client are the encodings of the first messages of: the restricted greeting, then the forwarded responses in order, mixed with replies of the proxy
itself. -/
theorem Proxy.run_messages (hL : L.Lawful) (hP : L.Proxyable) (h : (Proxy.start tc ts gc).run L gs as = some (p, T))
    {gr : Greeting} (hgr : (streamEvents (serverSide T)).head? = some (.greetingReceived gr)) :
    ∃ ms n, ms.filterMap ServerMessage.user? = forwardedResponses T ∧
      (∀ m ∈ ms, m.user? = none → ∃ r, m = .response none r ∧ OwnReply r) ∧ n ≤ ms.length + 1 ∧
      streamOutput (clientSide T) =
        ((.greeting gr.restrict :: ms).take n).flatMap (ServerMessage.bytes L) := by
  rcases Proxy.run_client hL hP h with ⟨-, h1⟩ | ⟨o, gr', c, V, ho, ⟨es, hes⟩, hl⟩
  · rw [h1] at hgr; cases hgr
  · obtain ⟨ops, ht⟩ := hl.trace
    obtain ⟨n, h1, h2⟩ := C19_server_output_bytes ht
    rw [hes] at hgr
    cases hgr
    have h3 := hl.responses
    rw [streamPart_clientFull] at h3
    exact ⟨V.flatMap SItem.enqueues, n, h3, own_messages ho ht, h1, hl.bytes.2.symm.trans h2⟩

/-! ## Capabilities -/

theorem restrict_supported (cs : Vec1 Capability) : ∀ c ∈ (restrict cs).toList, c.Supported := by
  intro c hc
  unfold restrict at hc
  split at hc
  · rw [show c = .imap4Rev1 by simpa [Vec1.toList] using hc]
    exact .inl (by simp)
  · rename_i c' cs' h
    have hc' : c ∈ c' :: cs' := hc
    rw [← h] at hc'
    simpa using (List.mem_filter.mp hc').2

theorem restrict_code_supported (code : Option Code) : ∀ c ∈ codeCapabilities (code.map Code.restrict), c.Supported := by
  intro c hc
  cases code with
  | none => cases hc
  | some code =>
    cases code with
    | capability cs => exact restrict_supported cs c hc
    | _ => cases hc

theorem Response.restrict_supported (r : Response) : ∀ c ∈ r.restrict.capabilities, c.Supported := by
  intro c hc
  cases r with
  | data d =>
    cases d with
    | capability cs => exact ImapFlow.restrict_supported cs c hc
    | _ => cases hc
  | status st => cases st <;> exact restrict_code_supported _ c hc
  | continuationRequest q =>
    cases q with
    | basic code text => exact restrict_code_supported _ c hc
    | base64 d => cases hc

theorem rejection_capabilities (tag : Tag) (st : Status) : (Response.status (rejection tag st)).capabilities = [] := by
  unfold rejection
  cases st <;> simp only <;> split <;> rfl

theorem OwnReply.capabilities {r : Response} (h : OwnReply r) : r.capabilities = [] := by
  rcases h with rfl | ⟨tag, rfl⟩ <;> rfl

/-- Everything but the answers to AUTHENTICATE and IDLE is filtered. -/
theorem ClientEvent.forwarded_supported {e : ClientEvent} {r : Response} (h : e.forwarded = some r)
    (hu : ¬ e.Unfiltered) : ∀ c ∈ r.capabilities, c.Supported := by
  cases e with
  | dataReceived d => cases h; exact Response.restrict_supported _
  | statusReceived st => cases h; exact Response.restrict_supported _
  | continuationRequestReceived q => cases h; exact Response.restrict_supported _
  | commandRejected hd cmd st =>
    cases h
    rw [rejection_capabilities]
    nofun
  | authenticateContinuationRequestReceived => exact (hu trivial).elim
  | authenticateStatusReceived => exact (hu trivial).elim
  | idleAccepted => exact (hu trivial).elim
  | idleRejected => exact (hu trivial).elim
  | _ => cases h

/-- The answers to AUTHENTICATE and IDLE answer commands. -/
theorem unfiltered_command (hL : L.Lawful) {o : ClientOptions} {ops : List ClientOp} {c : Client} {U : List CItem}
    (ht : (Client.new gc o).trace L ops = .ok (c, U)) {e : ClientEvent} (he : e ∈ U.filterMap CItem.event?)
    (hu : e.Unfiltered) : ∃ x ∈ clientEnqueued U, x.2.isRegular = false := by
  obtain ⟨i, hi, hie⟩ := List.mem_filterMap.mp he
  obtain ⟨U1, U2, rfl⟩ := List.append_of_mem hi
  have hg := Client.trace_guard hL ht
  have key : ∀ {hd cmd q}, (ClientView.of U1).remaining = (hd, cmd) :: q → cmd.isRegular = false →
      ∃ x ∈ clientEnqueued (U1 ++ i :: U2), x.2.isRegular = false := by
    intro hd cmd q hr hn
    refine ⟨(hd, cmd), ?_, hn⟩
    rw [clientEnqueued_append]
    refine List.mem_append_left _ ?_
    rw [← (ClientView.of_fields U1).2.2.1]
    refine List.mem_of_mem_drop (i := (ClientView.of U1).ended.length) ?_
    rw [show (ClientView.of U1).enqueued.drop _ = _ from hr]
    exact List.mem_cons_self
  have auth : ∀ {cmd : Command}, cmd.isAuthenticate = true → cmd.isRegular = false := by
    rintro ⟨t, b⟩ h; cases b <;> first | rfl | cases h
  have idle : ∀ {cmd : Command}, cmd.isIdle = true → cmd.isRegular = false := by
    rintro ⟨t, b⟩ h; cases b <;> first | rfl | cases h
  cases i with
  | sent e' =>
    cases hie
    obtain ⟨-, hd, cmd, q, -, ⟨rfl, -⟩ | ⟨rfl, -⟩ | ⟨rfl, -⟩ | ⟨rfl, -⟩⟩ := hg <;> exact hu.elim
  | received w e' =>
    cases hie
    obtain ⟨-, -, ⟨-, gr, rfl, -⟩ | ⟨-, r, hr, -⟩⟩ := hg
    · exact hu.elim
    · rcases ClientView.route_cases hr with ⟨d, rfl⟩ | ⟨st, rfl⟩ | ⟨c, -, rfl⟩ | ⟨hd, cmd, hc, hg⟩
      · exact hu.elim
      · exact hu.elim
      · exact hu.elim
      · obtain ⟨-, q, hrem⟩ := ClientView.current_elim hc
        rcases hg with ⟨st, rfl, h1⟩ | ⟨ca, st, rfl, h1⟩ | ⟨st, rfl, h1⟩ | ⟨c, rfl, h1, h2⟩ | ⟨c, rfl, h1, h2⟩
        · exact hu.elim
        · exact key hrem (auth h1)
        · exact key hrem (idle h1)
        · exact key hrem (auth h1)
        · exact key hrem (idle h1)
  | _ => cases hie

end ImapFlow
