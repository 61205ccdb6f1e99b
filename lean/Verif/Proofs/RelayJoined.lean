import Verif.Proofs.RelayCoupled
import Verif.Proofs.RestDelivered
import Verif.Spec.RelayDialogue

/-!
# The two connections of a proxy together

`T1` is the trace of the connection between the client and the server of the proxy, `T2` the trace of the connection
between the client of the proxy and the server.
-/

namespace ImapFlow

variable {L : Lib} {gc gps gpc gs : HandleGenerator} {oc opc : ClientOptions} {op os : ServerOptions} {gr : Greeting}

theorem RelayUsers.before {A A' : List CItem} {S S' : List SItem} (h : RelayUsers L oc opc op os gr (A ++ A') (S ++ S')) :
    RelayUsers L oc opc op os gr A S :=
  ⟨h.near.before, h.far.before, h.orderly.prefix, h.greeting,
    fun hd r hm => h.responses hd r (by rw [serverMessages_append]; exact List.mem_append_left _ hm), h.accepts⟩

theorem CItem.Silent.automatic {i : CItem} (h : i.Silent) : i.Automatic := by
  cases i <;> first | exact h.elim | trivial

theorem SItem.Silent.automatic {i : SItem} (h : i.Silent) : i.Automatic := by
  cases i <;> first | exact h.elim | trivial

theorem CItem.event_automatic {i : CItem} {e : ClientEvent} (h : i.event? = some e) : i.Automatic := by
  cases i <;> first | trivial | cases h

theorem SItem.event_automatic {i : SItem} {e : ServerEvent} (h : i.event? = some e) : i.Automatic := by
  cases i <;> first | trivial | cases h

theorem acceptReply_no_handle {mode : LiteralMode} (hd : RawHandle) (r : Response) :
    .response (some hd) r ∉ acceptReply L op mode := by
  intro h
  unfold acceptReply at h
  repeat' split at h
  all_goals simp at h

theorem OrderlyServer.snoc {S : List SItem} {i : SItem} (h : OrderlyServer S) (hi : (serverDialogue S).Allows i) :
    OrderlyServer (S ++ [i]) := by
  intro S1 j S2 hS
  rcases List.eq_nil_or_concat S2 with rfl | ⟨S3, k, rfl⟩
  · obtain ⟨rfl, h2⟩ := List.append_inj' hS rfl
    cases h2
    exact hi
  · have e : S1 ++ j :: S3.concat k = (S1 ++ j :: S3) ++ [k] := by simp
    rw [e] at hS
    exact h S1 j S3 (List.append_inj' hS rfl).1

/-- The responses of the proxy come from the server. -/
def Borrowed (gr : Greeting) (S V : List SItem) : Prop :=
  ∀ hd r, .response (some hd) r ∈ serverMessages gr.restrict V → ∃ r0, UserSent gr S r0 ∧ (r = r0 ∨ r = r0.restrict)

theorem Borrowed.mono {S S' V : List SItem} (h : Borrowed gr S V) : Borrowed gr (S ++ S') V := by
  intro hd r hm
  obtain ⟨r0, h1, h2⟩ := h hd r hm
  exact ⟨r0, h1.mono, h2⟩

theorem Borrowed.automatic {S V W : List SItem} (h : Borrowed gr S V) (hW : ∀ i ∈ W, i.Automatic)
    {sops : List ServerOp} {s : Server} {W' : List SItem}
    (hst : (Server.new gps op gr.restrict).trace L sops = .ok (s, V ++ W ++ W')) : Borrowed gr S (V ++ W) := by
  intro hd r hm
  rw [serverMessages_append] at hm
  rcases List.mem_append.mp hm with hm | hm
  · exact h hd r hm
  · obtain ⟨i, hi, hmi⟩ := List.mem_flatMap.mp hm
    have ha := hW i hi
    obtain ⟨V1, V2, rfl⟩ := List.append_of_mem hi
    have e : V ++ (V1 ++ i :: V2) ++ W' = V ++ V1 ++ i :: (V2 ++ W') := by simp
    rw [e] at hst
    have hg := Server.trace_guard hst
    cases i with
    | literal p rs =>
      obtain ⟨-, -, -, -, -, tag, k, mode, -, -, rfl⟩ := hg
      exact (acceptReply_no_handle hd r hmi).elim
    | failed e rs => exact (hg.2.2.1.no_handle hd r hmi).elim
    | enqueue => exact ha.elim
    | authContinue => exact ha.elim
    | authFinish => exact ha.elim
    | idleAccept => exact ha.elim
    | idleReject => exact ha.elim
    | _ => exact absurd hmi List.not_mem_nil

theorem RelayUsers.clearNear {A : List CItem} {S V : List SItem} (h : RelayUsers L oc opc op os gr A S) (hb : Borrowed gr S V) :
    ClearServer L oc op gr.restrict V := by
  refine ⟨h.greeting.2, fun hd r hm => ?_, fun mode => (h.accepts mode).2⟩
  obtain ⟨r0, ⟨hd0, h0⟩, rfl | rfl⟩ := hb hd r hm
  · exact (h.responses hd0 _ h0).2.1
  · exact (h.responses hd0 _ h0).2.2

theorem RelayUsers.clearFar {A : List CItem} {S : List SItem} (h : RelayUsers L oc opc op os gr A S) :
    ClearServer L opc os gr S :=
  ⟨h.greeting.1, fun hd r hm => (h.responses hd r hm).1, fun mode => (h.accepts mode).1⟩

/-- The state of both connections of the proxy. -/
structure Good (L : Lib) (os : ServerOptions) (gr : Greeting) (T1 T2 : List NItem) : Prop where
  orderly : OrderlyServer (serverItems T1)
  borrowed : Borrowed gr (serverItems T2) (serverItems T1)
  fair : FairClient L os (clientItems T2)
  coupled : Coupled (serverItems T1) (clientItems T2)

/-- The parameters of the two connections. -/
structure RelaySetup (L : Lib) (op os : ServerOptions) : Prop where
  lawful : L.Lawful
  builtNear : ServerOptions.Built L op
  sizeNear : 0 < op.maxCommandSize
  builtFar : ServerOptions.Built L os
  sizeFar : 0 < os.maxCommandSize

theorem RelayUsers.near_together {n : Net} {T : List NItem} {S : List SItem} {ops : List NetOp}
    (hs : RelaySetup L op os) (h : RelayUsers L oc opc op os gr (clientItems T) S) (ho : OrderlyServer (serverItems T))
    (hb : Borrowed gr S (serverItems T)) (hr : (Net.new gc oc gps op gr.restrict).run L ops = .ok (n, T))
    {P Q : List NItem} (hT : T = P ++ Q) : ∃ D fl, Together L op gr.restrict (clientItems P) (serverItems P) D fl :=
  (Net.run_linked hr).together hs.lawful hs.builtNear
    (Net.Linked.understood hs.lawful hs.builtNear hs.sizeNear hr (h.clearNear hb) h.near ho) hs.sizeNear h.near ho hT

theorem RelayUsers.far_together {n : Net} {T : List NItem} {A : List CItem} {ops : List NetOp}
    (hs : RelaySetup L op os) (h : RelayUsers L oc opc op os gr A (serverItems T)) (hf : FairClient L os (clientItems T))
    (hr : (Net.new gpc opc gs os gr).run L ops = .ok (n, T))
    {P Q : List NItem} (hT : T = P ++ Q) : ∃ D fl, Together L os gr (clientItems P) (serverItems P) D fl :=
  (Net.run_linked hr).together hs.lawful hs.builtFar
    (Net.Linked.understood hs.lawful hs.builtFar hs.sizeFar hr h.clearFar hf h.orderly) hs.sizeFar hf h.orderly hT

theorem RelayUsers.far_reported {n : Net} {T : List NItem} {A : List CItem} {ops : List NetOp}
    (hs : RelaySetup L op os) (h : RelayUsers L oc opc op os gr A (serverItems T)) (hf : FairClient L os (clientItems T))
    (hr : (Net.new gpc opc gs os gr).run L ops = .ok (n, T)) {P Q : List NItem} {w : Bytes} {e : ClientEvent}
    (hT : T = P ++ .client (.received w e) :: Q) : Reported gr (serverItems P) (ClientView.of (clientItems P)) e :=
  (Net.run_linked hr).reported hs.lawful hs.builtFar
    (Net.Linked.understood hs.lawful hs.builtFar hs.sizeFar hr h.clearFar hf h.orderly) hs.sizeFar hf h.orderly hT

/-! ## Steps of one side -/

variable {T1 T2 : List NItem}

theorem serverItems_clients (T : List NItem) (U : List CItem) : serverItems (T ++ U.map .client) = serverItems T := by
  rw [serverItems_append, serverItems_map_client, List.append_nil]

theorem clientItems_servers (T : List NItem) (W : List SItem) : clientItems (T ++ W.map .server) = clientItems T := by
  rw [clientItems_append, clientItems_map_server, List.append_nil]

theorem clientItems_clients (T : List NItem) (U : List CItem) : clientItems (T ++ U.map .client) = clientItems T ++ U := by
  rw [clientItems_append, clientItems_map_client]

theorem serverItems_servers (T : List NItem) (W : List SItem) : serverItems (T ++ W.map .server) = serverItems T ++ W := by
  rw [serverItems_append, serverItems_map_server]

/-- The client of the first connection moves. -/
theorem Good.client (h : Good L os gr T1 T2) (U : List CItem) : Good L os gr (T1 ++ U.map .client) T2 := by
  obtain ⟨h1, h2, h3, h4⟩ := h
  exact ⟨by rwa [serverItems_clients], by rwa [serverItems_clients], h3, by rwa [serverItems_clients]⟩

/-- The server of the second connection moves. -/
theorem Good.server (h : Good L os gr T1 T2) (W : List SItem) : Good L os gr T1 (T2 ++ W.map .server) := by
  obtain ⟨h1, h2, h3, h4⟩ := h
  exact ⟨h1, by rw [serverItems_servers]; exact h2.mono, by rwa [clientItems_servers], by rwa [clientItems_servers]⟩

/-- The server of the proxy moves silently. -/
theorem Good.quietServer (h : Good L os gr T1 T2) {W : List SItem} (hW : ∀ i ∈ W, i.Silent) {ops : List NetOp} {n : Net}
    (hr : (Net.new gc oc gps op gr.restrict).run L ops = .ok (n, T1 ++ W.map .server)) :
    Good L os gr (T1 ++ W.map .server) T2 := by
  obtain ⟨h1, h2, h3, h4⟩ := h
  obtain ⟨sops, hst⟩ := (Net.run_linked hr).server
  rw [serverItems_servers] at hst
  refine ⟨?_, ?_, h3, ?_⟩ <;> rw [serverItems_servers]
  · exact h1.automatic fun i hi => (hW i hi).automatic
  · exact h2.automatic (W' := []) (fun i hi => (hW i hi).automatic) (by rw [List.append_nil]; exact hst)
  · exact h4.quietServer hW

/-- The client of the proxy moves silently. -/
theorem Good.quietClient (h : Good L os gr T1 T2) {W : List CItem} (hW : ∀ i ∈ W, i.Silent) :
    Good L os gr T1 (T2 ++ W.map .client) := by
  obtain ⟨h1, h2, h3, h4⟩ := h
  refine ⟨h1, by rwa [serverItems_clients], ?_, ?_⟩ <;> rw [clientItems_clients]
  · exact h3.automatic fun i hi => (hW i hi).automatic
  · exact h4.quietClient hW

/-! ## The proxy has heard something from the client -/

/-- The data that the proxy heard was asked for. -/
theorem Good.dataAsked (h : Good L os gr T1 T2) (hs : RelaySetup L op os)
    (hU : RelayUsers L oc opc op os gr (clientItems T1) (serverItems T2)) {pre : List SItem} (hpre : ∀ i ∈ pre, i.Silent)
    {i : SItem} {e : ServerEvent} (hi : i.event? = some e) {ops : List NetOp} {n : Net}
    (hr : (Net.new gc oc gps op gr.restrict).run L ops = .ok (n, T1 ++ (pre ++ [i]).map .server)) :
    DataAsked (clientItems T2) e := by
  intro a he
  subst he
  obtain ⟨sops, hst⟩ := (Net.run_linked hr).server
  obtain ⟨cops, hct⟩ := (Net.run_linked hr).client
  rw [serverItems_servers] at hst
  rw [clientItems_servers] at hct
  have hW : ∀ j ∈ pre ++ [i], j.Automatic := by
    intro j hj
    rcases List.mem_append.mp hj with hj | hj
    · exact (hpre j hj).automatic
    · rw [List.mem_singleton.mp hj]; exact SItem.event_automatic hi
  have hU' : RelayUsers L oc opc op os gr (clientItems (T1 ++ (pre ++ [i]).map .server)) (serverItems T2) := by
    rwa [clientItems_servers]
  have ho' : OrderlyServer (serverItems (T1 ++ (pre ++ [i]).map .server)) := by
    rw [serverItems_servers]; exact h.orderly.automatic hW
  have hb' : Borrowed gr (serverItems T2) (serverItems (T1 ++ (pre ++ [i]).map .server)) := by
    rw [serverItems_servers]; exact h.borrowed.automatic (W' := []) hW (by rw [List.append_nil]; exact hst)
  have hg : Server.Guard L op (ServerView.of gr.restrict (serverItems T1 ++ pre)) i :=
    Server.trace_guard (T2 := []) (s := n.server) (ops := sops) (by rw [hst]; simp)
  obtain ⟨D, fl, h1⟩ := hU'.near_together hs ho' hb' hr (P := T1 ++ pre.map .server) (Q := [.server i]) (by simp)
  obtain ⟨D', fl', h2⟩ := hU'.near_together hs ho' hb' hr (P := T1 ++ (pre ++ [i]).map .server) (Q := []) (by simp)
  rw [serverItems_servers, clientItems_servers] at h1 h2
  have hwi : ∃ w, i = .received w (.authenticateDataReceived a) := by
    cases i with
    | sent e' =>
      cases hi
      obtain ⟨-, m, -, hm⟩ := hg
      rcases m with g | ⟨_ | hd, r⟩ <;> cases hm
    | received w e' => cases hi; exact ⟨w, rfl⟩
    | _ => cases hi
  obtain ⟨w, rfl⟩ := hwi
  have hsaid := h1.core.said
  rw [h2.core.said, ← List.append_assoc, serverHeard_snoc, List.append_assoc] at hsaid
  have hD : D = .authenticateDataReceived a :: D' := (List.append_cancel_left hsaid).symm
  have hjt := h1.core.joint
  rw [serverPhase_silent hpre, serverDialogue_silent hpre] at hjt
  have hnow := Client.now (T2 := []) hs.lawful (by rw [List.append_nil]; exact hct)
  have hno : ∀ {D : List ServerEvent} {p d}, Opens (ClientView.of (clientItems T1)) p d D → ∀ D', D ≠ .authenticateDataReceived a :: D' := by
    intro D p d ho D' hD
    rcases ho with ⟨-, -, ho⟩ | ⟨-, t, D2, -, -, ho, -⟩
    · obtain ⟨c, -, hc⟩ := ho (.authenticateDataReceived a) (by rw [hD]; simp)
      cases hc
    · rw [hD] at ho; cases ho
  have key : (serverDialogue (serverItems T1)).asked = 1 ∧ serverPhase (serverItems T1) = .authenticate := by
    rw [hD] at hjt
    generalize hE : (ServerEvent.authenticateDataReceived a :: D') = E at hjt
    cases hjt with
    | fresh _ ho => exact (hno ho _ hE.symm).elim
    | saying x _ _ _ _ _ ho =>
      rename_i D0 _ _ _ _ _
      cases D0 with
      | nil => exact (Command.event_not_data (List.cons.inj hE).1.symm).elim
      | cons y D0 => cases hE; exact (hno ho _ rfl).elim
    | literal x => exact (Command.event_not_data (List.cons.inj hE).1.symm).elim
    | authTalk x hc hx hp _ hle hsum hDD =>
      refine ⟨?_, hp⟩
      rcases hDD with rfl | ⟨a', rfl⟩
      · cases hE
      · have := (hnow.of_authenticate hc hx).2.2.2
        rw [List.length_singleton] at hsum
        omega
    | heard => cases hE
    | authContinue => cases hE
    | authFinish => cases hE
    | idlePending => cases hE
    | idleAccept => cases hE
    | idleReject => cases hE
    | idleOn => cases hE
    | idleDone => cases hE
  have := h.coupled.asked key.2
  omega

/-- What the client of the proxy has to say is understood by the server. -/
theorem Coupled.fair {A U : List CItem} {V : List SItem} (h : Coupled V U) {c : Client} {cops : List ClientOp}
    (hL : L.Lawful) (hct : (Client.new gpc opc).trace L cops = .ok (c, U)) {g : HandleGenerator} {o : ClientOptions}
    {c' : Client} {cops' : List ClientOp} (hct' : (Client.new g o).trace L cops' = .ok (c', A))
    (hh : serverHeard V <+: (ClientView.of A).said) (hF : FairClient L os A) : FairClient L os U := by
  obtain ⟨c1, hinv⟩ := Client.trace_prefix_inv (T2 := []) hL (by rw [List.append_nil]; exact hct)
  obtain ⟨c2, hinv'⟩ := Client.trace_prefix_inv (T2 := []) hL (by rw [List.append_nil]; exact hct')
  have hsane : ∀ e ∈ serverHeard V, Sane L os e := fun e he =>
    FairClient.sane (A := A) (A' := []) (by rw [List.append_nil]; exact hF) e (hh.subset he)
  have hcmd := ClientView.fed_commands hinv.1.1
  rw [← h.heard, (ClientView.of_fields U).2.2.1] at hcmd
  have hsaid := ClientView.said_commands hinv'.1.1
  rw [(ClientView.of_fields A).2.2.1] at hsaid
  have each : ∀ x ∈ clientEnqueued U, x.2.RoundTrip L os ∧ x.2.Fits L os := by
    intro x hx
    have : x.2 ∈ (serverHeard V).filterMap ServerEvent.command? := by rw [hcmd]; exact List.mem_map.mpr ⟨x, hx, rfl⟩
    obtain ⟨e, he, hc⟩ := List.mem_filterMap.mp this
    rcases hsane e he with ⟨c, rfl, h1, h2⟩ | ⟨a, rfl, -⟩ | ⟨rfl, -⟩
    · rw [Command.event_command] at hc
      cases hc
      exact ⟨h1, h2⟩
    · cases hc
    · cases hc
  refine ⟨⟨fun x hx => (each x hx).1, fun x hx => (each x hx).2, ?_⟩, fun d hd => ?_, hF.done⟩
  · have h1 := (hh.filterMap ServerEvent.command?).trans hsaid
    rw [hcmd] at h1
    have h2 := (h1.map fun c => c.tag).sublist
    rw [List.map_map, List.map_map] at h2
    exact h2.nodup hF.commands.tags
  · rcases hsane _ (h.datas d hd) with ⟨c, hc, -⟩ | ⟨a, ha, h1⟩ | ⟨hd, -⟩
    · exact (Command.event_not_data hc.symm).elim
    · cases ha; exact h1
    · cases hd

/-- The proxy has heard something and passed it on. -/
theorem Good.heard (h : Good L os gr T1 T2) (hs : RelaySetup L op os)
    (hU : RelayUsers L oc opc op os gr (clientItems T1) (serverItems T2)) {pre : List SItem} (hpre : ∀ i ∈ pre, i.Silent)
    {i : SItem} {e : ServerEvent} (hi : i.event? = some e) {ops ops' : List NetOp} {n n' : Net}
    (hr : (Net.new gc oc gps op gr.restrict).run L ops = .ok (n, T1 ++ (pre ++ [i]).map .server))
    {J : List CItem} (hJ : J.map CItem.op? = e.passed.toList.map some)
    (hr' : (Net.new gpc opc gs os gr).run L ops' = .ok (n', T2 ++ J.map .client)) :
    Good L os gr (T1 ++ (pre ++ [i]).map .server) (T2 ++ J.map .client) := by
  have hask := h.dataAsked hs hU hpre hi hr
  obtain ⟨sops, hst⟩ := (Net.run_linked hr).server
  obtain ⟨cops1, hct1⟩ := (Net.run_linked hr).client
  obtain ⟨cops, hct⟩ := (Net.run_linked hr').client
  rw [serverItems_servers] at hst
  rw [clientItems_servers] at hct1
  rw [clientItems_clients] at hct
  have hW : ∀ j ∈ pre ++ [i], j.Automatic := by
    intro j hj
    rcases List.mem_append.mp hj with hj | hj
    · exact (hpre j hj).automatic
    · rw [List.mem_singleton.mp hj]; exact SItem.event_automatic hi
  have ho' : OrderlyServer (serverItems T1 ++ (pre ++ [i])) := h.orderly.automatic hW
  have hb' : Borrowed gr (serverItems T2) (serverItems T1 ++ (pre ++ [i])) :=
    h.borrowed.automatic (W' := []) hW (by rw [List.append_nil]; exact hst)
  have hg : Server.Guard L op (ServerView.of gr.restrict (serverItems T1 ++ pre)) i :=
    Server.trace_guard (T2 := []) (s := n.server) (ops := sops) (by rw [hst]; simp)
  obtain ⟨c1, hinv⟩ := Client.trace_prefix_inv hs.lawful hct
  obtain ⟨hc, -⟩ := (h.coupled.quietServer hpre).hear hinv.1 hg hi hask hJ (relaxed := opc.crlfRelaxed) fun j hj => by
    subst hj
    exact Client.trace_guard hs.lawful (T2 := []) hct
  rw [List.append_assoc] at hc
  obtain ⟨D', fl', ht⟩ := RelayUsers.near_together (T := T1 ++ (pre ++ [i]).map .server) (S := serverItems T2) hs
    (by rwa [clientItems_servers]) (by rwa [serverItems_servers]) (by rwa [serverItems_servers]) hr
    (P := T1 ++ (pre ++ [i]).map .server) (Q := []) (by simp)
  rw [serverItems_servers, clientItems_servers] at ht
  have hf : FairClient L os (clientItems T2 ++ J) :=
    hc.fair hs.lawful hct hct1 (by rw [ht.core.said]; exact List.prefix_append _ _) hU.far
  refine ⟨?_, ?_, ?_, ?_⟩
  · rwa [serverItems_servers]
  · rwa [serverItems_servers, serverItems_clients]
  · rwa [clientItems_clients]
  · rwa [serverItems_servers, clientItems_clients]

/-! ## The server has told the proxy something -/

/-- What the proxy is told. -/
theorem Good.reported (h : Good L os gr T1 T2) (hs : RelaySetup L op os)
    (hU : RelayUsers L oc opc op os gr (clientItems T1) (serverItems T2)) {pre : List CItem} (hpre : ∀ i ∈ pre, i.Silent)
    {w : Bytes} {e : ClientEvent} {ops : List NetOp} {n : Net}
    (hr : (Net.new gpc opc gs os gr).run L ops = .ok (n, T2 ++ (pre ++ [CItem.received w e]).map .client)) :
    Reported gr (serverItems T2) (ClientView.of (clientItems T2 ++ pre)) e := by
  have hW : ∀ j ∈ pre ++ [CItem.received w e], j.Automatic := by
    intro j hj
    rcases List.mem_append.mp hj with hj | hj
    · exact (hpre j hj).automatic
    · rw [List.mem_singleton.mp hj]; trivial
  have := RelayUsers.far_reported (T := T2 ++ (pre ++ [CItem.received w e]).map .client) (P := T2 ++ pre.map .client) (Q := [])
    (w := w) (e := e) hs (A := clientItems T1) (by rwa [serverItems_clients])
    (by rw [clientItems_clients]; exact h.fair.automatic hW) hr (by simp)
  rwa [serverItems_clients, clientItems_clients] at this

/-- The server of the proxy waits for what is told. -/
theorem Good.ready (h : Good L os gr T1 T2) (hs : RelaySetup L op os)
    (hU : RelayUsers L oc opc op os gr (clientItems T1) (serverItems T2)) {pre : List CItem} (hpre : ∀ i ∈ pre, i.Silent)
    {i : CItem} {e : ClientEvent} (hi : i.event? = some e) {ops : List NetOp} {n : Net}
    (hr : (Net.new gpc opc gs os gr).run L ops = .ok (n, T2 ++ (pre ++ [i]).map .client)) :
    e.Ready (serverPhase (serverItems T1)) := by
  obtain ⟨cops, hct⟩ := (Net.run_linked hr).client
  rw [clientItems_clients] at hct
  have hct' : (Client.new gpc opc).trace L cops = .ok (n.client, clientItems T2 ++ pre ++ i :: []) := by
    rw [hct]; simp
  obtain ⟨c1, hinv⟩ := Client.trace_prefix_inv hs.lawful hct'
  refine ((h.coupled.quietClient hpre).ready hinv.1 (Client.trace_guard hs.lawful hct') hi (gr := gr) (S := serverItems T2) ?_).1
  rintro w rfl
  exact h.reported hs hU hpre hr

/-- Commands known as completed to the server are known as completed to the proxy. -/
theorem Good.completed (h : Good L os gr T1 T2) (hs : RelaySetup L op os)
    (hU : RelayUsers L oc opc op os gr (clientItems T1) (serverItems T2)) {ops ops' : List NetOp} {n n' : Net} {Q Q' : List NItem}
    (hr : (Net.new gc oc gps op gr.restrict).run L ops = .ok (n, T1 ++ Q))
    (hr' : (Net.new gpc opc gs os gr).run L ops' = .ok (n', T2 ++ Q')) (hQ : serverItems Q' = [])
    (hf : FairClient L os (clientItems (T2 ++ Q'))) :
    ∀ t ∈ (serverDialogue (serverItems T2)).completed, t ∈ (serverDialogue (serverItems T1)).completed := by
  obtain ⟨sops, hst⟩ := (Net.run_linked hr).server
  obtain ⟨sops', hst'⟩ := (Net.run_linked hr').server
  rw [serverItems_append] at hst hst'
  rw [(completed_heard hst).1, (completed_heard hst').1]
  apply completedBy_mono
  rw [h.coupled.heard]
  obtain ⟨D, fl, ht⟩ := RelayUsers.far_together (T := T2 ++ Q') (A := clientItems T1) hs
    (by rw [serverItems_append, hQ, List.append_nil]; exact hU) hf hr' (P := T2) (Q := Q') rfl
  refine List.IsPrefix.trans ?_ (ClientView.said_fed _)
  rw [ht.core.said]
  exact List.prefix_append _ _

/-- The proxy was told something and has passed it on. -/
theorem Good.told (h : Good L os gr T1 T2) (hs : RelaySetup L op os)
    (hU : RelayUsers L oc opc op os gr (clientItems T1) (serverItems T2)) {pre : List CItem} (hpre : ∀ i ∈ pre, i.Silent)
    {i : CItem} {e : ClientEvent} (hi : i.event? = some e) {ops ops' : List NetOp} {n n' : Net}
    (hr : (Net.new gpc opc gs os gr).run L ops = .ok (n, T2 ++ (pre ++ [i]).map .client))
    {J : List SItem} (hJ : J.map SItem.op? = e.answer.toList.map some)
    (hr' : (Net.new gc oc gps op gr.restrict).run L ops' = .ok (n', T1 ++ J.map .server)) :
    Good L os gr (T1 ++ J.map .server) (T2 ++ (pre ++ [i]).map .client) := by
  obtain ⟨cops, hct⟩ := (Net.run_linked hr).client
  obtain ⟨sops, hst⟩ := (Net.run_linked hr').server
  rw [clientItems_clients] at hct
  rw [serverItems_servers] at hst
  have hct' : (Client.new gpc opc).trace L cops = .ok (n.client, clientItems T2 ++ pre ++ i :: []) := by
    rw [hct]; simp
  have hW : ∀ j ∈ pre ++ [i], j.Automatic := by
    intro j hj
    rcases List.mem_append.mp hj with hj | hj
    · exact (hpre j hj).automatic
    · rw [List.mem_singleton.mp hj]; exact CItem.event_automatic hi
  obtain ⟨c1, hinv⟩ := Client.trace_prefix_inv hs.lawful hct'
  have hg := Client.trace_guard hs.lawful hct'
  have hf : FairClient L os (clientItems (T2 ++ (pre ++ [i]).map .client)) := by
    rw [clientItems_clients]; exact h.fair.automatic hW
  have key : Coupled (serverItems T1 ++ J) (clientItems T2 ++ pre ++ [i]) ∧ ToldOk gr (serverItems T2) (serverItems T1) J := by
    cases i with
    | sent e' =>
      cases hi
      obtain ⟨h1, h2⟩ := (h.coupled.quietClient hpre).sent hinv.1 hg
      rw [h1] at hJ
      have hJ : J = [] := by simpa using hJ
      subst hJ
      rw [List.append_nil]
      exact ⟨h2, .nil⟩
    | received w e' =>
      cases hi
      refine (h.coupled.quietClient hpre).told hinv.1 hg (h.reported hs hU hpre hr) ?_ hJ (o := op) (gr' := gr.restrict) ?_
      · exact h.completed hs hU hr' hr (serverItems_map_client _) hf
      · rintro j rfl
        exact Server.trace_guard (T2 := []) hst
    | _ => cases hi
  obtain ⟨hc, hok⟩ := key
  refine ⟨?_, ?_, hf, ?_⟩
  · rw [serverItems_servers]
    rcases hok.short with rfl | ⟨j, rfl⟩
    · rw [List.append_nil]; exact h.orderly
    · exact h.orderly.snoc (hok.allowed j rfl)
  · rw [serverItems_servers, serverItems_clients]
    intro hd r hm
    rw [serverMessages_append] at hm
    rcases List.mem_append.mp hm with hm | hm
    · exact h.borrowed hd r hm
    · exact hok.user hd r hm
  · rw [serverItems_servers, clientItems_clients, ← List.append_assoc]
    exact hc

end ImapFlow
