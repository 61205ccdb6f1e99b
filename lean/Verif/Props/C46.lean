import Verif.Proofs.ProxyWaiting
import Verif.Props.C41
import Verif.Spec.ProxySamples

/-!
# C46: a waiting proxy has passed on everything

False for the responses (`C46_false`), because of the reason given at C25.  True for the commands.
-/

namespace ImapFlow

variable {K : Type} {L : Lib} {tc ts : Option (Tls K)} {gc gs : HandleGenerator} {as : List ProxyAct} {p : Proxy K}
  {T : List ProxyItem}

/-- The claim for the responses in one run: if the proxy waits for input on both connections, then every
forwarded response has been written. -/
def WaitingMeansWritten (L : Lib) (p : Proxy K) (T : List ProxyItem) : Prop :=
  ∀ c s, p = .conversation c s → c.ctl = .at .reading → s.ctl = .at .reading →
    ∀ r ∈ forwardedResponses T, wire (L.encodeResponse r) <:+: streamWrote (clientSide T)

/-- The claim is false: a response waits in the queue until one of the peers sends something else. -/
theorem C46_false : ¬ ∀ (L : Lib) (_ : L.Lawful) (_ : L.Proxyable) (gc gs : HandleGenerator) (as : List ProxyAct)
    (p : Proxy Nat) (T : List ProxyItem), (Proxy.start none none gc).run L gs as = some (p, T) → WaitingMeansWritten L p T := by
  intro H
  obtain ⟨c, s, T, h, h1, h2, h3, h4⟩ := ProxySample.run_stuck
  have h5 := H _ Toy.lawful Toy.proxyable _ _ _ _ _ h c s rfl h1 h2 (.data (.other (ClientSample.str "e"))) (by
    rw [h3]; simp)
  rw [h4] at h5
  obtain ⟨x, y, h5⟩ := h5
  have h6 := congrArg (fun l => l.drop x.length |>.take 2) h5
  have h7 : wire (Toy.lib.encodeResponse (.data (.other (ClientSample.str "e")))) = ClientSample.ln "*e" := by
    decide +kernel
  rw [h7] at h6
  have h8 : x.length ≤ 74 + 9 := by
    have := congrArg List.length h5
    rw [List.length_append, List.length_append] at this
    have h9 : (ClientSample.ln "G[CR]hi" ++ ClientSample.ln "+proxy: Literal accepted by proxy" ++
      ClientSample.ln "*d" ++ ClientSample.ln "+proxy: Literal accepted by proxy").length = 83 := by decide +kernel
    omega
  have h9 : ∀ n ≤ 74 + 9, ((ClientSample.ln "G[CR]hi" ++ ClientSample.ln "+proxy: Literal accepted by proxy" ++
      ClientSample.ln "*d" ++ ClientSample.ln "+proxy: Literal accepted by proxy").drop n).take 2 ≠
      ClientSample.str "*e" := by decide +kernel
  refine h9 _ h8 (h6.symm.trans ?_)
  simp only [List.append_assoc, List.drop_left]
  rfl

/-- What holds instead: if the proxy waits for input from the client, all messages for the client have been handed to the
stream completely, unless the last one is a reply of the proxy itself; then responses may follow. -/
theorem C46_partial {paired : K → K → Prop} (hL : L.Lawful) (hP : L.Proxyable) (htls : Connected paired tc)
    (hne : ∀ m : ServerMessage, m.bytes L ≠ [])
    {c : FullStream K Server} {s : FullStream K Client}
    (h : (Proxy.start tc ts gc).run L gs as = some (.conversation c s, T)) (hc : c.ctl = .at .reading) :
    ∃ gr ms n, (streamEvents (serverSide T)).head? = some (.greetingReceived gr) ∧
      ms.filterMap ServerMessage.user? = forwardedResponses T ∧
      (∀ m ∈ ms, m.user? = none → ∃ r, m = .response none r ∧ OwnReply r) ∧
      streamOutput (clientSide T) = ((.greeting gr.restrict :: ms).take n).flatMap (ServerMessage.bytes L) ∧
      (n = ms.length + 1 ∨ ∃ r, ((.greeting gr.restrict :: ms).take n).getLast? = some (.response none r)) := by
  obtain ⟨-, o, gr, V, U, hi⟩ := Proxy.run_inv hL hP h
  obtain ⟨es, hes⟩ := hi.greeting
  have hl := hi.client
  obtain ⟨ops, ht⟩ := hl.trace
  have hw : streamOutput (clientSide T) = serverOutput V := hl.bytes.2.symm
  have hresp := hl.responses
  rw [streamPart_clientFull] at hresp
  obtain ⟨V0, i, rfl, rfl | rfl⟩ := hl.reading htls.growing hc
  · obtain ⟨n, -, h2, h3⟩ := server_starved ht
    have hV : serverMessages gr.restrict V0 = .greeting gr.restrict :: (V0 ++ [SItem.starved]).flatMap SItem.enqueues := by
      simp [serverMessages, SItem.enqueues]
    refine ⟨gr, (V0 ++ [SItem.starved]).flatMap SItem.enqueues, n, ?_, hresp, own_messages hi.options ht, ?_, ?_⟩
    · show (serverEvents T).head? = _
      rw [hes]; rfl
    · rw [hw, serverOutput_append, h2, hV]
      simp [serverOutput, SItem.outputs]
    · rw [hV] at h3
      exact h3
  · exfalso
    obtain ⟨-, m, -, hm⟩ := Server.trace_guard ht
    exact hne m hm.symm

/-- For the commands: if the proxy waits for input from the server, then its client has nothing to hand out: it waits for the server or the user (`Waiting`, see C25). -/
theorem C46_commands {paired : K → K → Prop} (hL : L.Lawful) (hP : L.Proxyable) (htls : Connected paired ts)
    {c : FullStream K Server} {s : FullStream K Client}
    (h : (Proxy.start tc ts gc).run L gs as = some (.conversation c s, T)) (hs : s.ctl = .at .reading) :
    ∃ ops U, (Client.new gc .default).trace L ops = .ok (s.state, U ++ [.starved]) ∧
      (clientEnqueued U).map Prod.snd = receivedCommands T ∧ clientGiven U = streamDelivered (serverSide T) ∧
      clientOutput U = streamOutput (serverSide T) ∧ clientGreeted U ∧ Waiting L (ClientView.of U) := by
  obtain ⟨-, o, gr, V, U, hi⟩ := Proxy.run_inv hL hP h
  obtain ⟨es, hes⟩ := hi.greeting
  have hl := hi.server
  obtain ⟨ops, ht⟩ := hl.trace
  have hw : streamOutput (serverSide T) = clientOutput U := hl.bytes.2.symm
  have hen : (clientEnqueued U).map Prod.snd = receivedCommands T := by
    rw [hl.enqueued, streamPart_serverFull, ← C41_commands hL hP h]; rfl
  have hgiven := hl.bytes.1
  have hev := hl.events
  rw [streamPart_serverFull] at hev
  obtain ⟨U0, i, rfl, rfl | rfl⟩ := hl.reading htls.growing hs
  · have hg : clientGreeted U0 := by
      have : ClientEvent.greetingReceived gr ∈ (U0 ++ [CItem.starved]).filterMap CItem.event? := by
        rw [hev]
        show _ ∈ serverEvents T
        rw [hes]; exact List.mem_cons_self
      obtain ⟨i, hi, hie⟩ := List.mem_filterMap.mp this
      rcases List.mem_append.mp hi with hi | hi
      · exact ⟨i, hi, gr, hie⟩
      · rw [List.mem_singleton.mp hi] at hie; cases hie
    refine ⟨ops, U0, ht, ?_, ?_, ?_, hg, C25_client_nothing_to_send hL ht hg⟩
    · rw [← hen, clientEnqueued_append]; simp [clientEnqueued, CItem.enqueues]
    · rw [← hgiven, clientGiven_append]; simp [clientGiven, CItem.given]
    · rw [hw, clientOutput_append]; simp [clientOutput, CItem.outputs]
  · exact ((Client.trace_guard hL ht).2.1 rfl).elim

/-- If no command has a synchronizing literal and the client uses neither AUTHENTICATE nor IDLE, all commands have been
handed to the stream completely. -/
theorem C46_all_commands {paired : K → K → Prop} (hL : L.Lawful) (hP : L.Proxyable) (htls : Connected paired ts)
    {c : FullStream K Server} {s : FullStream K Client}
    (h : (Proxy.start tc ts gc).run L gs as = some (.conversation c s, T)) (hs : s.ctl = .at .reading)
    (hreg : ∀ c ∈ receivedCommands T, c.isRegular = true)
    (hsync : ∀ c ∈ receivedCommands T, ∀ d, .literal d .sync ∉ L.encodeCommand c) :
    streamOutput (serverSide T) = (receivedCommands T).flatMap fun c => wire (L.encodeCommand c) := by
  obtain ⟨ops, U, ht, he, -, ho, hg, -⟩ := C46_commands hL hP htls h hs
  rw [← he] at hreg hsync ⊢
  rw [← ho, client_starved hL ht hg (fun x hx => hreg _ (List.mem_map_of_mem hx))
    (fun x hx => hsync _ (List.mem_map_of_mem hx)), List.flatMap_map]

/-- A stream that waits for input has written everything that was handed to it: without TLS as it is, with TLS as
records. -/
theorem C46_written {paired : K → K → Prop} (hL : L.Lawful) (hP : L.Proxyable) {c : FullStream K Server}
    {s : FullStream K Client} (h : (Proxy.start tc ts gc).run L gs as = some (.conversation c s, T)) :
    (Connected paired tc → c.ctl = .at .reading →
      Sealed paired tc (streamWrote (clientSide T)) (streamOutput (clientSide T))) ∧
    (Connected paired ts → s.ctl = .at .reading →
      Sealed paired ts (streamWrote (serverSide T)) (streamOutput (serverSide T))) := by
  obtain ⟨⟨hcalm, -, -⟩, o, gr, V, U, hi⟩ := Proxy.run_inv hL hP h
  refine ⟨fun htls hc => ?_, fun htls hs => ?_⟩
  · obtain ⟨as', hr⟩ := hi.client.run
    obtain ⟨h1, h2⟩ := FullStream.new_wrote htls hr fun hm => (hcalm _).1 (mem_clientFull.1.1 hm)
    rwa [h2 hc, List.append_nil, streamPart_clientFull] at h1
  · obtain ⟨as', hr⟩ := hi.server.run
    obtain ⟨h1, h2⟩ := FullStream.new_wrote htls hr fun hm => (hcalm _).2 (mem_serverFull.1.1 hm)
    rwa [h2 hs, List.append_nil, streamPart_serverFull] at h1

/-- A proxy that waits after it has passed on two commands and a response. -/
example : ∃ c s T, ProxySample.run ProxySample.settled = some (.conversation c s, T) ∧ c.ctl = .at .reading ∧
    s.ctl = .at .reading ∧ (∀ c ∈ receivedCommands T, c.isRegular = true) ∧
    (∀ c ∈ receivedCommands T, ∀ d, .literal d .sync ∉ Toy.lib.encodeCommand c) ∧
    streamWrote (serverSide T) = ClientSample.ln "A Cz" ++ ClientSample.ln "B Cy" ∧
    streamWrote (clientSide T) = ClientSample.ln "G[CR]hi" ++ ClientSample.ln "oA done" := by
  obtain ⟨c, s, T, h, h1, h2, h3, -, h4, h5⟩ := ProxySample.run_settled
  refine ⟨c, s, T, h, h1, h2, by rw [h3]; decide, ?_, h4, h5⟩
  rw [h3]
  intro c hc d hd
  have : ∀ c ∈ ([⟨ClientSample.str "A", .other (ClientSample.str "z")⟩,
      ⟨ClientSample.str "B", .other (ClientSample.str "y")⟩] : List Command),
      (Toy.lib.encodeCommand c).all (fun f => match f with | .literal .. => false | _ => true) := by decide +kernel
  exact Bool.noConfusion (List.all_eq_true.mp (this c hc) _ hd)

/-- The toy codec meets the hypothesis of `C46_partial`. -/
example : ∀ m : ServerMessage, m.bytes Toy.lib ≠ [] := by
  have line : ∀ (b : UInt8) d, [Fragment.line (Toy.ln (b :: d))].flatMap Fragment.data ≠ [] := by
    intro b d; simp [Fragment.data, Toy.ln]
  rintro (g | ⟨h, r⟩)
  · exact line _ _
  · show (Toy.encodeResponse r).flatMap Fragment.data ≠ []
    unfold Toy.encodeResponse
    split
    · exact line _ _
    · split
      · simp [Fragment.data, Toy.ln, Toy.announce]
      · exact line _ _
    all_goals exact line _ _

end ImapFlow
