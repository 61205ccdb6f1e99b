import Verif.Proofs.NetLiteral

/-!
# A stuck system has delivered every command
-/

namespace ImapFlow

variable {L : Lib} {gc gs : HandleGenerator} {oc : ClientOptions} {os : ServerOptions} {gr : Greeting}
  {n : Net} {T : List NItem}

theorem map_eq_take {α β γ : Type} {f : α → γ} {g : β → γ} {l : List α} {E : List β}
    (h : ∀ (n : Nat) a, l[n]? = some a → ∃ b, E[n]? = some b ∧ f a = g b) : l.map f = (E.take l.length).map g := by
  induction l generalizing E with
  | nil => rfl
  | cons a l ih =>
    obtain ⟨b, h1, h2⟩ := h 0 a rfl
    cases E with
    | nil => cases h1
    | cons b' E =>
      cases h1
      rw [List.map_cons, List.length_cons, List.take_succ_cons, List.map_cons, h2,
        ih (fun n a ha => by simpa using h (n + 1) a (by simpa using ha))]

/-- All ended commands were sent completely. -/
theorem GoodCommands.ended (hL : L.Lawful) {g : HandleGenerator} {o : ClientOptions} {ops : List ClientOp}
    {c : Client} {T : List CItem} (h : (Client.new g o).trace L ops = .ok (c, T)) (hc : GoodCommands L os T) :
    (ClientView.of T).ended.map ClientEnded.event =
      ((clientEnqueued T).take (ClientView.of T).ended.length).map (fun x => .commandSent x.1 x.2) ∧
    (ClientView.of T).ended.map ClientEnded.sent =
      ((clientEnqueued T).take (ClientView.of T).ended.length).map (fun x => wire (L.encodeCommand x.2)) := by
  obtain ⟨-, -, h3, h4, -⟩ := ClientView.of_fields T
  have key : ∀ (n : Nat) en, (ClientView.of T).ended[n]? = some en → ∃ x, (clientEnqueued T)[n]? = some x ∧
      en.event = .commandSent x.1 x.2 ∧ en.sent = wire (L.encodeCommand x.2) := by
    intro n en hn
    obtain ⟨x, hx, he⟩ := Client.trace_ended hL h n en hn
    rw [h3] at hx
    refine ⟨x, hx, ?_⟩
    obtain ⟨b, hb⟩ := Command.body_of_regular (hc.regular x (List.mem_of_getElem? hx))
    unfold EndedAs at he
    rw [hb] at he
    rcases he with he | ⟨st, he, -⟩
    · exact he
    · exfalso
      refine hc.accepted x.1 x.2 st ?_
      rw [← h4]
      exact List.mem_map.mpr ⟨en, List.mem_of_getElem? hn, he⟩
  exact ⟨map_eq_take fun n a ha => (key n a ha).imp fun b hb => ⟨hb.1, hb.2.1⟩,
    map_eq_take fun n a ha => (key n a ha).imp fun b hb => ⟨hb.1, hb.2.2⟩⟩

/-- The client has read everything the server handed out. -/
theorem Net.Linked.all_read (hL : L.Lawful) (hl : Net.Linked L gc oc gs os gr n T)
    (hrt : ∀ m ∈ serverMessages gr (serverItems T), m.RoundTrip L oc) (hch : n.toClient = []) {T1 : List CItem}
    (hst : clientItems T = T1 ++ [.starved]) :
    clientDecoded L T1 =
      ((serverMessages gr (serverItems T)).take (serverOutputs (serverItems T)).length).map ServerMessage.content ∧
    (clientGreeted T1 ↔ 0 < (serverOutputs (serverItems T)).length) := by
  obtain ⟨k, h1, h2, h3, -, h5⟩ := hl.reads hL hrt hst
  obtain ⟨hle, hout⟩ := hl.output
  obtain ⟨cops, hc⟩ := hl.client
  obtain ⟨sops, hs⟩ := hl.server
  have hgiven := hl.toClient
  rw [hch, List.append_nil, hout, hst] at hgiven
  rw [hst] at hc
  have hk := Client.starved_reads hL hc ((Server.greetingFirst hs).take _)
    (fun m hm => hrt m (List.mem_of_mem_take hm))
    (by rw [← hgiven]; simp [clientGiven, CItem.given]) (k := k)
    (by rw [List.length_take]; omega) (by rw [List.take_take, Nat.min_eq_left h1]; exact h2) h5
  rw [List.length_take, Nat.min_eq_left hle] at hk
  rw [h3, ← hk]
  exact ⟨rfl, h5⟩

/-- The greeting was handed out. -/
theorem Server.starved_greeting {g : HandleGenerator} {o : ServerOptions} {ops : List ServerOp} {s : Server}
    {T1 T2 : List SItem} (h : (Server.new g o gr).trace L ops = .ok (s, T1 ++ .starved :: T2)) :
    0 < (serverOutputs T1).length := by
  rcases Nat.eq_zero_or_pos (serverOutputs T1).length with h0 | h0
  · exfalso
    obtain ⟨h1, -⟩ := C25_server_partial h
    rw [h0] at h1
    obtain ⟨hd, r, h2⟩ := h1 (.greeting gr) (by simp [serverMessages])
    cases h2
  · exact h0

theorem Net.Linked.done (hL : L.Lawful) (h : Net.Linked L gc oc gs os gr n T) (hO : ServerOptions.Built L os)
    (hrt : ∀ m ∈ serverMessages gr (serverItems T), m.RoundTrip L oc) {A : List CItem} {B : List SItem}
    (hA : clientItems T = A ++ [.starved]) (hB : serverItems T = B ++ [.starved])
    (hch1 : n.toServer = []) (hch2 : n.toClient = []) (hmax : 0 < os.maxCommandSize)
    (hc : GoodCommands L os (clientItems T)) :
    serverCommands (serverItems T) = (clientEnqueued (clientItems T)).map (·.2) ∧
    clientTerminals (clientItems T) = (clientEnqueued (clientItems T)).map fun x => .commandSent x.1 x.2 := by
  obtain ⟨cops, hct⟩ := h.client
  obtain ⟨sops, hst⟩ := h.server
  have hst' := hst
  rw [hB] at hst'
  have hct' := hct
  rw [hA] at hct'
  obtain ⟨s1, hinv⟩ := Server.prefix_inv hst'
  obtain ⟨hdec, hgr⟩ := h.all_read hL hrt hch2 hA
  have hout : (serverOutputs (serverItems T)).length = (serverOutputs B).length := by
    rw [hB]; simp [serverOutputs]
  have hw : Waiting L (ClientView.of A) :=
    C25_client_nothing_to_send hL hct' (hgr.mpr (by rw [hout]; exact Server.starved_greeting hst'))
  have hofA : ClientView.of (clientItems T) = ClientView.of A := by
    rw [hA, ClientView.of_snoc]; rfl
  obtain ⟨hev, hsn⟩ := hc.ended hL hct
  rw [hofA] at hev hsn
  obtain ⟨-, -, hf3, hf4, hf5⟩ := ClientView.of_fields (clientItems T)
  rw [hofA] at hf3 hf4 hf5
  rw [List.flatMap_def, hsn, ← List.flatMap_def] at hf5
  obtain ⟨k, hk, hreads, hph⟩ := h.commands hL hmax hc hB
  have hcmd : serverCommands (serverItems T) = serverCommands B := by
    rw [hB]; simp [serverCommands, SItem.command?]
  have hgiven : serverGiven B = clientOutput (clientItems T) := by
    rw [← h.toServer, hch1, hB]
    simp [serverGiven, SItem.given]
  have hplain : ∀ x ∈ clientEnqueued (clientItems T), PlainRead L os (x.2.read L) := fun x hx =>
    Command.plainRead (hc.regular x hx) (hc.roundTrip x hx) (hc.fits x hx)
  generalize he : (ClientView.of A).ended.length = e at *
  have hke : e ≤ k ∨ (clientEnqueued (clientItems T)).length ≤ k := by
    rcases Nat.lt_or_ge k e with hlt | hge
    · right
      have := Server.starved_reads (us := ((clientEnqueued (clientItems T)).take e).map fun x => x.2.read L)
        (rest := (ClientView.of A).sent) (k := k) hst'
        (by
          intro u hu
          obtain ⟨x, hx, rfl⟩ := List.mem_map.mp hu
          exact hplain x (List.mem_of_mem_take hx))
        (by rw [hgiven, ← hf5, List.flatMap_map]; rfl)
        (by rw [hreads, ← List.map_take, List.take_take, Nat.min_eq_left (by omega)]) hph
      rw [List.length_map, List.length_take] at this
      omega
    · exact .inl hge
  rcases hw with ⟨-, hrem⟩ | ⟨hd, cmd, q, hrem, hsne, hcase⟩
  · -- everything was sent
    unfold ClientView.remaining at hrem
    rw [hf3, he, List.drop_eq_nil_iff] at hrem
    rw [List.take_of_length_le hrem] at hev
    refine ⟨?_, hf4.symm.trans hev⟩
    rw [hcmd, serverCommands_filter, hreads, serverCommands_reads, List.take_of_length_le (by omega)]
  · exfalso
    unfold ClientView.remaining at hrem
    have hlt : e < (clientEnqueued (clientItems T)).length := by
      rcases Nat.lt_or_ge e (clientEnqueued (clientItems T)).length with h1 | h1
      · exact h1
      · rw [hf3, he, List.drop_of_length_le h1] at hrem; cases hrem
    have hx : (clientEnqueued (clientItems T))[e]? = some (hd, cmd) := by
      have := congrArg (fun l => l[0]?) hrem
      simp only [List.getElem?_drop, hf3, he, Nat.add_zero] at this
      simpa using this
    have hmem := List.mem_of_getElem? hx
    have hreg := hc.regular _ hmem
    have hce := hc.roundTrip _ hmem
    have hfit := hc.fits _ hmem
    obtain ⟨o, ho⟩ := Command.body_of_regular hreg
    simp only at ho hreg hce hfit
    rcases hcase with ⟨-, -, pre, d, post, henc, hsent, hrel⟩ | ⟨g, -⟩ | ⟨g, -⟩
    · -- the server has read everything before this command and nothing of it
      have htk : serverTaken B = ((clientEnqueued (clientItems T)).take k).flatMap fun x => wire (L.encodeCommand x.2) := by
        rw [serverTaken_filter, hreads, List.flatMap_map]
        rfl
      have hek : k = e := by
        rcases Nat.lt_or_ge e k with h1 | h1
        · exfalso
          have h2 := take_flatMap_length (fun x : RawHandle × Command => wire (L.encodeCommand x.2))
            (l := clientEnqueued (clientItems T)) (Nat.succ_le_of_lt h1)
          rw [Nat.succ_eq_add_one, List.take_add_one, hx, List.flatMap_append, List.length_append, ← htk] at h2
          simp only [Option.toList_some, List.flatMap_cons, List.flatMap_nil, List.append_nil] at h2
          have h3 := congrArg List.length (Server.given_eq hinv)
          rw [hgiven, ← hf5, hsent, List.length_append, List.length_append] at h3
          rw [henc, wire_append, wire_cons, List.length_append, List.length_append] at h2
          have h4 := List.length_pos_iff.mpr (CommandEncodes.after hce henc)
          omega
        · omega
      subst hek
      have hun : serverUnread B = wire pre := by
        have h3 := Server.given_eq hinv
        rw [hgiven, ← hf5, ← htk, List.append_cancel_left_eq, hsent] at h3
        exact h3.symm
      obtain ⟨a1, a2⟩ := CommandEncodes.announces hce .nil hfit.2 henc
      rw [List.nil_append] at a1 a2
      exact h.no_deadlock hL hO hrt hA hB hdec (by unfold ClientView.remaining; exact hrem) hreg henc hsent hrel hce a1 a2
        hch1 hph hun
    · simp [Command.isAuthenticate, ho] at g
    · simp [Command.isIdle, ho] at g

/-- A stuck system can be observed again without a change. -/
theorem Net.Linked.settle (hl : Net.Linked L gc oc gs os gr n T) (hO : ServerOptions.Built L os) (hs : n.Stuck L) :
    ∃ n' T' A B, Net.Linked L gc oc gs os gr n' T' ∧ clientItems T' = A ++ [.starved] ∧
      serverItems T' = B ++ [.starved] ∧ n'.toServer = [] ∧ n'.toClient = [] ∧
      clientEnqueued (clientItems T') = clientEnqueued (clientItems T) ∧
      clientTerminals (clientItems T') = clientTerminals (clientItems T) ∧
      serverMessages gr (serverItems T') = serverMessages gr (serverItems T) ∧
      (serverItems T').filter SItem.reads = (serverItems T).filter SItem.reads ∧
      ∃ U, T' = T ++ U ∧ (∀ i ∈ serverItems U, i.enqueues = []) ∧
        (∀ i ∈ serverItems U, i = .starved ∨ i = .quiet ∨ ∃ p rs, i = .literal p rs) ∧
        ∀ i ∈ clientItems U, i = .starved ∨ ∃ w, i = .released w := by
  obtain ⟨n', ws, U, hl', h1, h2, hU⟩ := hl.stuck hs
  have hA : clientItems (T ++ (ws.map CItem.released ++ [CItem.starved]).map .client ++
      (U ++ [SItem.starved]).map .server) = (clientItems T ++ ws.map CItem.released) ++ [.starved] := by
    rw [clientItems_append, clientItems_append, clientItems_map_client, clientItems_map_server]
    simp
  have hB : serverItems (T ++ (ws.map CItem.released ++ [CItem.starved]).map .client ++
      (U ++ [SItem.starved]).map .server) = (serverItems T ++ U) ++ [.starved] := by
    rw [serverItems_append, serverItems_append, serverItems_map_client, serverItems_map_server]
    simp
  -- the server enqueues nothing in the last call
  have hUe : U.flatMap SItem.enqueues = [] := by
    rw [List.flatMap_eq_nil_iff]
    intro j hj
    rcases hU j hj with rfl | ⟨p, rs, rfl⟩
    · rfl
    · obtain ⟨sops, hst⟩ := hl'.server
      rw [hB] at hst
      obtain ⟨hpart, -⟩ := C25_server_partial hst
      obtain ⟨U1, U2, hU12⟩ := List.append_of_mem hj
      have hst1 : (Server.new gs os gr).trace L sops =
          .ok (n'.server, (serverItems T ++ U1) ++ .literal p rs :: (U2 ++ [.starved])) := by
        rw [hst, hU12]; simp
      obtain ⟨-, -, -, tag, k, mode, -, -, -, hrs⟩ := C21_server_literal hO hst1
      show rs = []
      cases hrs' : rs with
      | nil => rfl
      | cons m ms =>
        exfalso
        obtain ⟨hle, -⟩ := hl.output
        have ho : (serverOutputs (serverItems T ++ U)).length ≤ (serverMessages gr (serverItems T)).length := by
          have : serverOutputs (serverItems T ++ U) = serverOutputs (serverItems T) := by
            have hz : serverOutputs U = [] := by
              unfold serverOutputs
              rw [List.filterMap_eq_nil_iff]
              intro a ha
              rcases hU a ha with rfl | ⟨p, rs, rfl⟩ <;> rfl
            unfold serverOutputs at hz ⊢
            rw [List.filterMap_append, hz, List.append_nil]
          rw [this]; exact hle
        obtain ⟨hd, r, hm⟩ := hpart m (by
          rw [serverMessages_append, List.drop_append_of_le_length ho]
          refine List.mem_append_right _ (List.mem_flatMap.mpr ⟨_, hj, ?_⟩)
          show m ∈ rs
          rw [hrs']; simp)
        rw [hrs] at hrs'
        cases mode with
        | nonSync => cases hrs'
        | sync =>
          simp only [LiteralAnswer, List.cons.injEq] at hrs'
          rw [hm] at hrs'
          cases hrs'.1
  have hmsg : serverMessages gr (serverItems (T ++ (ws.map CItem.released ++ [CItem.starved]).map .client ++
      (U ++ [SItem.starved]).map .server)) = serverMessages gr (serverItems T) := by
    rw [hB, serverMessages_append, serverMessages_append, hUe]
    simp [SItem.enqueues]
  have hq : clientEnqueued (ws.map CItem.released) = [] ∧ clientTerminals (ws.map CItem.released) = [] := by
    constructor
    · unfold clientEnqueued
      rw [List.flatMap_eq_nil_iff]
      intro a ha
      obtain ⟨w, -, rfl⟩ := List.mem_map.mp ha
      rfl
    · unfold clientTerminals
      rw [List.filterMap_eq_nil_iff]
      intro a ha
      obtain ⟨w, -, rfl⟩ := List.mem_map.mp ha
      rfl
  have hr : U.filter SItem.reads = [] := by
    rw [List.filter_eq_nil_iff]
    intro a ha
    rcases hU a ha with rfl | ⟨p, rs, rfl⟩ <;> simp [SItem.reads]
  refine ⟨n', _, _, _, hl', hA, hB, h1, h2, ?_, ?_, hmsg, ?_, _, List.append_assoc .., ?_, ?_, ?_⟩
  · rw [hA, clientEnqueued_append, clientEnqueued_append, hq.1]
    simp [clientEnqueued, CItem.enqueues]
  · rw [hA, clientTerminals_append, clientTerminals_append, hq.2]
    simp [clientTerminals, CItem.terminal?, CItem.event?]
  · rw [hB, List.filter_append, List.filter_append, hr]
    simp [SItem.reads]
  · intro j hj
    rw [serverItems_append, serverItems_map_client, serverItems_map_server, List.nil_append, List.mem_append] at hj
    rcases hj with hj | hj
    · exact List.flatMap_eq_nil_iff.mp hUe j hj
    · rw [List.mem_singleton.mp hj]
      rfl
  · intro j hj
    rw [serverItems_append, serverItems_map_client, serverItems_map_server, List.nil_append, List.mem_append] at hj
    rcases hj with hj | hj
    · exact .inr (hU j hj)
    · exact .inl (List.mem_singleton.mp hj)
  · intro j hj
    rw [clientItems_append, clientItems_map_client, clientItems_map_server, List.append_nil, List.mem_append] at hj
    rcases hj with hj | hj
    · obtain ⟨w, -, rfl⟩ := List.mem_map.mp hj
      exact .inr ⟨w, rfl⟩
    · exact .inl (List.mem_singleton.mp hj)

end ImapFlow
