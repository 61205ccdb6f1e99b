import Verif.Proofs.NetStuck

/-!
# No deadlock in the negotiation of literals
-/

namespace ImapFlow

variable {L : Lib} {gc gs : HandleGenerator} {oc : ClientOptions} {os : ServerOptions} {gr : Greeting}
  {n : Net} {T : List NItem}

theorem take_flatMap_length {α : Type} (f : α → Bytes) {l : List α} {j k : Nat} (h : j ≤ k) :
    ((l.take j).flatMap f).length ≤ ((l.take k).flatMap f).length := by
  have : l.take j = (l.take k).take j := by rw [List.take_take, Nat.min_eq_left h]
  rw [flatMap_take_drop f (l.take k) j, ← this, List.length_append]
  omega

theorem route_continuation_regular {v : ClientView} {h : RawHandle} {cmd : Command} {q : ContinuationRequest}
    (hc : v.current = some (h, cmd)) (hreg : cmd.isRegular = true) : v.route (.continuationRequest q) = none := by
  obtain ⟨o, ho⟩ := Command.body_of_regular hreg
  simp [ClientView.route, hc, ho]

/-- The literal for which the client waits was accepted by the server, and the client has read so. -/
theorem Net.Linked.no_deadlock (hL : L.Lawful) (h : Net.Linked L gc oc gs os gr n T) (hO : ServerOptions.Built L os)
    (hrt : ∀ m ∈ serverMessages gr (serverItems T), m.RoundTrip L oc) {A : List CItem} {B : List SItem}
    (hA : clientItems T = A ++ [.starved]) (hB : serverItems T = B ++ [.starved])
    (hdec : clientDecoded L A =
      ((serverMessages gr (serverItems T)).take (serverOutputs (serverItems T)).length).map ServerMessage.content)
    {hd : RawHandle} {cmd : Command} {q : List (RawHandle × Command)} {pre post : List Fragment} {d : Bytes}
    (hrem : (ClientView.of A).remaining = (hd, cmd) :: q) (hreg : cmd.isRegular = true)
    (henc : L.encodeCommand cmd = pre ++ .literal d .sync :: post)
    (hsent : (ClientView.of A).sent = wire pre) (hrel : (ClientView.of A).released = syncs pre)
    {relaxed : Bool} (hce : CommandEncodes L relaxed cmd [] (L.encodeCommand cmd))
    (hann : Announces (commandFraming L os) (wire pre) d.length)
    (hdecode : L.decodeCommand (wire pre) = .error (.literalFound cmd.tag d.length .sync))
    (hch : n.toServer = []) (hph : serverPhase B = .command) (hun : serverUnread B = wire pre) : False := by
  obtain ⟨cops, hct⟩ := h.client
  obtain ⟨sops, hst⟩ := h.server
  have hst' := hst
  rw [hB] at hst'
  have hsne : (ClientView.of A).sent ≠ [] := by rw [hsent]; exact hce.before henc
  -- the server accepted the literal
  have hall := C21_server_literals_when_starved hst' hph
  rw [hun] at hall
  obtain ⟨B1, rs, B2, hBs, hnr⟩ := mem_serverLiterals ((hall.2 (wire pre)).mpr ⟨List.prefix_refl _, _, hann⟩)
  have hst1 : (Server.new gs os gr).trace L sops = .ok (n.server, B1 ++ .literal (wire pre) rs :: (B2 ++ [.starved])) := by
    rw [hst', hBs]; simp
  obtain ⟨-, hpu, -, tag, k, mode, -, hd', -, hrs⟩ := C21_server_literal hO hst1
  rw [hdecode] at hd'
  cases hd'
  obtain ⟨P, Q, hT, hP, hQ⟩ := serverItems_split (T := T) (B1 := B1) (i := .literal (wire pre) rs) (B2 := B2 ++ [.starved])
    (by rw [hB, hBs]; simp)
  -- at this moment everything was handed out by the client
  obtain ⟨s1, hinv1⟩ := Server.prefix_inv hst1
  obtain ⟨s2, hinv2⟩ := Server.prefix_inv hst'
  have htk : serverTaken B = serverTaken B1 := by
    rw [hBs, serverTaken_filter, serverTaken_filter B1, List.filter_append, List.filter_cons]
    have : B2.filter SItem.reads = [] := List.filter_eq_nil_iff.mpr (fun a ha => by simp [hnr a ha])
    simp [this, SItem.reads]
  have hall' : clientOutput (clientItems T) = serverTaken B ++ wire pre := by
    have hg : serverGiven (serverItems T) = serverGiven B := by
      rw [hB]; simp [serverGiven, SItem.given]
    rw [← h.toServer, hg, Server.given_eq hinv2, hun, hch, List.append_nil]
  obtain ⟨hcau1, hcau2⟩ := h.causal P _ hT
  rw [hP] at hcau1 hcau2
  have hCs : clientItems T = clientItems P ++ clientItems Q := by
    rw [hT, clientItems_append]
    rfl
  have hquiet : clientOutput (clientItems Q) = [] := by
    have h1 := hcau2.length_le
    rw [Server.given_eq hinv1, List.length_append, ← htk] at h1
    have h2 := hpu.length_le
    have h3 := congrArg List.length hall'
    rw [hCs, clientOutput_append, List.length_append, List.length_append] at h3
    exact List.eq_nil_of_length_eq_zero (by omega)
  -- the answer of the server
  have hms : serverMessages gr (serverItems T) = serverMessages gr B1 ++
      .response none (.continuationRequest os.literalAcceptCcr) :: (serverItems Q).flatMap SItem.enqueues := by
    rw [hB, hBs, hQ, List.append_assoc, serverMessages_append, hrs]
    simp [SItem.enqueues, LiteralAnswer]
  have hj : (serverMessages gr (serverItems T))[(serverMessages gr B1).length]? =
      some (.response none (.continuationRequest os.literalAcceptCcr)) := by
    rw [hms, List.getElem?_append_right (Nat.le_refl _)]
    simp
  generalize hjd : (serverMessages gr B1).length = j at hj
  have hj0 : 0 < j := by
    rw [← hjd]
    simp [serverMessages]
  have hout : (serverOutputs (serverItems T)).length = (serverOutputs B).length := by
    rw [hB]; simp [serverOutputs]
  have hmB : serverMessages gr B = serverMessages gr (serverItems T) := by
    rw [hB]; simp [serverMessages, SItem.enqueues]
  have hjo : j < (serverOutputs B).length := by
    rcases Nat.lt_or_ge j (serverOutputs B).length with h1 | h1
    · exact h1
    · exfalso
      obtain ⟨h2, -⟩ := C25_server_partial hst'
      obtain ⟨hd', r, h3⟩ := h2 (.response none (.continuationRequest os.literalAcceptCcr)) (by
        rw [List.mem_iff_getElem?]
        refine ⟨j - (serverOutputs B).length, ?_⟩
        rw [List.getElem?_drop, hmB, ← hj]
        congr 1
        omega)
      cases h3
  -- the client reads it afterwards
  obtain ⟨k1, hk1, htk1, hdec1, -, -⟩ := h.reads hL hrt hCs
  have hcP : (Client.new gc oc).trace L cops = .ok (n.client, clientItems P ++ clientItems Q) := by rw [hct, hCs]
  have hk1j : k1 ≤ j := by
    rcases Nat.lt_or_ge j k1 with hlt | hge
    · exfalso
      obtain ⟨c1, hcinv⟩ := Client.trace_prefix_inv hL hcP
      have h1 : (clientTaken (clientItems P)).length ≤ (clientGiven (clientItems P)).length := by
        rw [Client.given_eq hcinv, List.length_append]; omega
      have h2 := hcau1.length_le
      have h3 : (serverOutput B1).length ≤ (((serverMessages gr (serverItems T)).take j).flatMap (ServerMessage.bytes L)).length := by
        obtain ⟨-, ⟨-, -, g3, -⟩, -⟩ := hinv1
        rw [ServerView.of_messages] at g3
        have hm : (serverMessages gr (serverItems T)).take j = serverMessages gr B1 := by
          rw [hms, ← hjd, List.take_left]
        rw [← ((ServerView.of_fields gr B1).2.2.2.1), g3, ← List.flatMap_def, hm]
        have := take_flatMap_length (ServerMessage.bytes L) (l := serverMessages gr B1)
          (j := (ServerView.of gr B1).outputs.length) (k := (ServerView.of gr B1).outputs.length + (serverMessages gr B1).length)
          (by omega)
        rw [List.take_of_length_le (i := _ + _) (by omega)] at this
        exact this
      have h4 := take_flatMap_length (ServerMessage.bytes L) (l := serverMessages gr (serverItems T)) (Nat.succ_le_of_lt hlt)
      rw [← htk1, Nat.succ_eq_add_one, List.take_add_one, hj, List.flatMap_append, List.length_append] at h4
      have h5 : ServerMessage.bytes L (.response none (.continuationRequest os.literalAcceptCcr)) ≠ [] := by
        have := hrt _ (List.mem_of_getElem? hj)
        exact (IsMessage.complete this).ne_nil
      have h6 := List.length_pos_iff.mpr h5
      simp only [Option.toList_some, List.flatMap_cons, List.flatMap_nil, List.append_nil] at h4
      omega
    · exact hge
  obtain ⟨k2, hk2, -, hdec2, -, -⟩ := h.reads hL hrt hA
  have hf1 : (clientDecoded L (clientItems P)).length ≤ j := by
    rw [hdec1, List.length_map, List.length_take]; omega
  have hf2 : j < (clientDecoded L (clientItems P ++ clientItems Q)).length := by
    have : clientDecoded L (clientItems P ++ clientItems Q) = clientDecoded L A := by
      rw [← hCs, hA, clientDecoded_append]
      simp [clientDecoded, CItem.decoded]
    rw [this, hdec, List.length_map, List.length_take, hout]
    have := (List.getElem?_eq_some_iff.mp hj).1
    omega
  obtain ⟨D1, i, D2, hD, hd1, hd2⟩ := crossing (fun U => (clientDecoded L U).length) j _ _ hf1 hf2
  have hCi : clientItems T = (clientItems P ++ D1 ++ [i]) ++ D2 := by rw [hCs, hD]; simp
  have hCi' : clientItems T = (clientItems P ++ D1) ++ (i :: D2) := by rw [hCs, hD]; simp
  obtain ⟨k3, hk3, -, hdec3, -, hgr3⟩ := h.reads hL hrt hCi'
  obtain ⟨k4, hk4, -, hdec4, -, -⟩ := h.reads hL hrt hCi
  have hsplit : clientDecoded L (clientItems P ++ D1 ++ [i]) = clientDecoded L (clientItems P ++ D1) ++ i.decoded L := by
    rw [clientDecoded_append]; simp [clientDecoded]
  have hone := CItem.decoded_length (L := L) i
  have hle := h.output.1
  have hl3 : (clientDecoded L (clientItems P ++ D1)).length = k3 := by
    rw [hdec3, List.length_map, List.length_take]; omega
  have hl4 : (clientDecoded L (clientItems P ++ D1 ++ [i])).length = k4 := by
    rw [hdec4, List.length_map, List.length_take]; omega
  have hl34 : k4 = k3 + (i.decoded L).length := by rw [← hl3, ← hl4, hsplit, List.length_append]
  have hk3j : k3 = j := by omega
  have hk4j : k4 = j + 1 := by omega
  have hid : i.decoded L = [.response (.continuationRequest os.literalAcceptCcr)] := by
    rw [hdec3, hdec4, hk3j, hk4j, List.take_add_one, hj, List.map_append, List.append_cancel_left_eq] at hsplit
    rw [← hsplit]
    rfl
  -- nothing else happened to the command in the meantime
  have hAs : A ++ [.starved] = clientItems P ++ clientItems Q := by rw [← hA, hCs]
  have hofA : ClientView.of (A ++ [.starved]) = ClientView.of A := by
    rw [ClientView.of_snoc]; rfl
  have hDo : clientOutput D1 = [] ∧ clientOutput (i :: D2) = [] := by
    rw [hD, clientOutput_append] at hquiet
    exact List.append_eq_nil_iff.mp hquiet
  have hD2o : clientOutput D2 = [] := by
    have : i :: D2 = [i] ++ D2 := rfl
    rw [this, clientOutput_append] at hDo
    exact (List.append_eq_nil_iff.mp hDo.2).2
  have hof1 : ClientView.of (clientItems P ++ D1 ++ (i :: D2)) = ClientView.of A := by
    rw [← hCi', hA, hofA]
  have hof2 : ClientView.of (clientItems P ++ D1 ++ [i] ++ D2) = ClientView.of A := by
    rw [← hCi, hA, hofA]
  obtain ⟨e1, e2, -, e4⟩ := ClientView.of_still (clientItems P ++ D1) (i :: D2) hDo.2 (by rw [hof1]; exact hsne)
  obtain ⟨-, -, e5, -⟩ := ClientView.of_still (clientItems P ++ D1 ++ [i]) D2 hD2o (by rw [hof2]; exact hsne)
  rw [hof1] at e1 e2 e4
  rw [hof2, hrel] at e5
  have hcI : (Client.new gc oc).trace L cops = .ok (n.client, (clientItems P ++ D1) ++ (i :: D2)) := by rw [hct, hCi']
  have hguard := Client.trace_guard hL hcI
  have hgreeted : (ClientView.of (clientItems P ++ D1)).greeted = true :=
    (ClientView.of_greeted _).mpr (hgr3.mpr (by omega))
  -- so the client was waiting with the same command
  have key : Waiting L (ClientView.of (clientItems P ++ D1)) →
      (ClientView.of (clientItems P ++ D1)).current = some (hd, cmd) ∧
      (ClientView.of (clientItems P ++ D1)).released = syncs pre := by
    intro hw
    rcases hw with ⟨⟨hf, -⟩, -⟩ | ⟨hd', cmd', q', w1, w2, w3⟩
    · rw [e2] at hsne
      exact absurd hf hsne
    · have hsame : (hd', cmd') = (hd, cmd) := by
        obtain ⟨t, ht⟩ := e4
        unfold ClientView.remaining at w1 hrem
        rw [← ht, e1, List.drop_append, w1] at hrem
        simp only [List.cons_append, List.cons.injEq] at hrem
        exact hrem.1
      cases hsame
      refine ⟨by simp [ClientView.current, w2, w1], ?_⟩
      obtain ⟨o, ho⟩ := Command.body_of_regular hreg
      rcases w3 with ⟨-, -, pre', d', post', g1, g2, g3⟩ | ⟨g, -⟩ | ⟨g, -⟩
      · have : pre' = pre := hce.literal_unique g1 henc (by rw [← g2, ← e2, hsent])
        rw [g3, this]
      · simp [Command.isAuthenticate, ho] at g
      · simp [Command.isIdle, ho] at g
  cases i with
  | received w e =>
    obtain ⟨g1, -, ⟨g2, -⟩ | ⟨-, r, g2, -⟩⟩ := hguard
    · rw [hgreeted] at g2; cases g2
    · have hr := route_response g2
      rw [response_decoded hr] at hid
      cases hid
      rw [route_continuation_regular (key (g1 hgreeted)).1 hreg] at g2
      cases g2
  | released w =>
    obtain ⟨-, g1, -⟩ := hguard
    have := (key g1).2
    rw [ClientView.of_snoc] at e5
    simp only [ClientView.observe] at e5
    omega
  | _ => cases hid

end ImapFlow
