import Verif.Proofs.NetReject

/-!
# A stuck system has delivered or rejected every command
-/

namespace ImapFlow

variable {L : Lib} {gc gs : HandleGenerator} {oc : ClientOptions} {os : ServerOptions} {gr : Greeting}
  {n : Net} {T : List NItem}

theorem CommandEncodes.decodes_at {relaxed : Bool} {c : Command} {p : Bytes} {fs pre post : List Fragment}
    (h : CommandEncodes L relaxed c p fs) {d : Bytes} {mode : LiteralMode} (hs : fs = pre ++ .literal d mode :: post) :
    L.decodeCommand (p ++ wire pre) = .error (.literalFound c.tag d.length mode) := by
  induction h generalizing pre with
  | last =>
    cases pre with
    | nil => simp at hs
    | cons x pre => simp at hs
  | @literal p l d0 m0 fs h1 h2 h3 h4 ih =>
    cases pre with
    | nil => simp at hs
    | cons x pre =>
      simp only [List.cons_append, List.cons.injEq] at hs
      obtain ⟨rfl, hs⟩ := hs
      cases pre with
      | nil =>
        simp only [List.nil_append, List.cons.injEq, Fragment.literal.injEq] at hs
        obtain ⟨⟨rfl, rfl⟩, rfl⟩ := hs
        have hw : wire [.line l] = l := by simp [wire, Fragment.data]
        rw [hw]
        exact h3
      | cons y pre =>
        simp only [List.cons_append, List.cons.injEq] at hs
        obtain ⟨rfl, rfl⟩ := hs
        have hw : p ++ wire (.line l :: .literal d0 m0 :: pre) = p ++ l ++ d0 ++ wire pre := by
          simp [wire, Fragment.data]
        rw [hw]
        exact ih rfl

theorem announcements_append (p : Bytes) (a b : List Fragment) :
    announcements p (a ++ b) = announcements p a ++ announcements (p ++ wire a) b := by
  induction a generalizing p with
  | nil => simp [announcements, wire]
  | cons f a ih =>
    cases f with
    | line l => simp [announcements, ih, wire, Fragment.data]
    | literal d m => simp [announcements, ih, wire, Fragment.data]

/-- A synchronizing literal of the transmitted part is accepted by the server. -/
theorem Command.announces_transmitted {c : Command} (hrt : c.RoundTrip L os) {pre post : List Fragment} {d : Bytes}
    (henc : L.encodeCommand c = pre ++ .literal d .sync :: post) (hs : syncs pre < syncs (c.transmitted L os)) :
    Announces (commandFraming L os) (wire pre) d.length ∧
      L.decodeCommand (wire pre) = .error (.literalFound c.tag d.length .sync) := by
  have hdec := CommandEncodes.decodes_at hrt henc
  rw [List.nil_append] at hdec
  refine ⟨?_, hdec⟩
  have hpre : pre ++ [.literal d .sync] <+: c.transmitted L os := by
    have h1 : pre ++ [.literal d .sync] <+: L.encodeCommand c := by
      rw [henc]
      exact ⟨post, by simp⟩
    have h2 : c.transmitted L os <+: L.encodeCommand c := List.takeWhile_prefix _
    rcases List.prefix_or_prefix_of_prefix h1 h2 with h3 | h3
    · exact h3
    · rcases List.prefix_concat_iff.mp h3 with h4 | h4
      · rw [h4]
        exact List.prefix_refl _
      · exfalso
        obtain ⟨r, hr⟩ := h4
        rw [← hr, syncs_append] at hs
        omega
  have hmem : wire pre ∈ announcements [] (c.transmitted L os) := by
    obtain ⟨r, hr⟩ := hpre
    rw [← hr, announcements_append, announcements_append]
    simp [announcements]
  obtain ⟨-, k, hk⟩ := CommandEncodes.mem_announced hrt .nil hmem
  have : k = d.length := by
    obtain ⟨p, l, e, -, -, -, -, h5, h6⟩ := hk
    have h5 : L.decodeCommand (wire pre) = .error e := h5
    rw [hdec] at h5
    cases h5
    have h6 : CommandDecodeError.acceptable os.maxLiteralSize (.literalFound c.tag d.length .sync) = some k := h6
    rw [CommandDecodeError.acceptable] at h6
    split at h6
    · cases h6; rfl
    · cases h6
  rw [← this]
  exact hk

theorem Net.Linked.settled (hL : L.Lawful) (h : Net.Linked L gc oc gs os gr n T) (hO : ServerOptions.Built L os)
    (hrt : ∀ m ∈ serverMessages gr (serverItems T), m.RoundTrip L oc) {A : List CItem} {B : List SItem}
    (hA : clientItems T = A ++ [.starved]) (hB : serverItems T = B ++ [.starved])
    (hch1 : n.toServer = []) (hch2 : n.toClient = []) (hmax : 0 < os.maxCommandSize)
    (hE : MixedCommands L os (clientEnqueued (clientItems T))) (hP : PoliteServer gr T) :
    (serverItems T).filter SItem.reads = (clientEnqueued (clientItems T)).map (fun x => x.2.serverRead L os) ∧
    (clientTerminals (clientItems T)).length = (clientEnqueued (clientItems T)).length := by
  obtain ⟨cops, hct⟩ := h.client
  obtain ⟨sops, hst⟩ := h.server
  have hst' := hst
  rw [hB] at hst'
  have hct' := hct
  rw [hA] at hct'
  obtain ⟨hdec, hgr⟩ := h.all_read hL hrt hch2 hA
  have hout : (serverOutputs (serverItems T)).length = (serverOutputs B).length := by
    rw [hB]; simp [serverOutputs]
  have hw : Waiting L (ClientView.of A) :=
    C25_client_nothing_to_send hL hct' (hgr.mpr (by rw [hout]; exact Server.starved_greeting hst'))
  have hofA : ClientView.of (clientItems T) = ClientView.of A := by
    rw [hA, ClientView.of_snoc]; rfl
  obtain ⟨hc, hcount, -⟩ := h.agreed hL hO hrt hmax hE hP (P := T) (Q := []) (by simp)
  obtain ⟨hco, hcp⟩ := hc.output
  obtain ⟨-, -, hf3, hf4, -⟩ := ClientView.of_fields (clientItems T)
  rw [hofA] at hc hcount hco hf3 hf4
  have hgiven : serverGiven B = clientOutput (clientItems T) := by
    rw [← h.toServer, hch1, hB]
    simp [serverGiven, SItem.given]
  obtain ⟨k, m, hs⟩ := hE.serverAt hO hmax hst' (by rw [hgiven]; exact hcp)
  -- the client has read all messages that the server generated itself
  have hmB : serverMessages gr B = serverMessages gr (serverItems T) := by
    rw [hB]; simp [serverMessages, SItem.enqueues]
  have hcount' : ((serverMessages gr B).filter ServerMessage.own).length =
      (((clientEnqueued (clientItems T)).take (ClientView.of A).ended.length).flatMap fun x => x.2.answers L os).length +
        (ClientView.of A).released := by
    rw [← hcount]
    have h1 : (clientDecoded L (clientItems T)).length = (serverOutputs B).length := by
      rw [hA, clientDecoded_append, hdec, hout]
      have := h.output.1
      simp only [clientDecoded, CItem.decoded, List.flatMap_cons, List.flatMap_nil, List.append_nil, List.length_map,
        List.length_take]
      omega
    rw [h1, hmB]
    conv => lhs; rw [← List.take_append_drop (serverOutputs B).length (serverMessages gr (serverItems T)), List.filter_append]
    have h2 : ((serverMessages gr (serverItems T)).drop (serverOutputs B).length).filter ServerMessage.own = [] := by
      rw [List.filter_eq_nil_iff]
      intro a ha
      obtain ⟨hd, r, rfl⟩ := (C25_server_partial hst').1 a (by rw [hmB]; exact ha)
      simp [ServerMessage.own]
    rw [h2, List.append_nil]
  have hlen : (clientTerminals (clientItems T)).length = (ClientView.of A).ended.length := by
    rw [← hf4, List.length_map]
  rw [hlen]
  have hreadsB : (serverItems T).filter SItem.reads = B.filter SItem.reads := by
    rw [hB, List.filter_append]
    simp [SItem.reads]
  rw [hreadsB, hs.reads]
  rw [hs.own, List.length_append, List.length_replicate] at hcount'
  generalize hEd : clientEnqueued (clientItems T) = E at *
  -- everything that was handed out completely was read
  have hread : ∀ e rest, e ≤ E.length → serverGiven B = (E.take e).flatMap (transmittedBytes L os) ++ rest → e ≤ k := by
    intro e rest hle hg
    rcases Nat.lt_or_ge k e with hlt | hge
    · have := Server.starved_reads (us := (E.take e).map fun x => x.2.serverRead L os) (rest := rest) (k := k) hst'
        (by
          intro u hu
          obtain ⟨x, hx, rfl⟩ := List.mem_map.mp hu
          exact hE.plainRead x (List.mem_of_mem_take hx))
        (by
          rw [hg, List.flatMap_map, List.flatMap_def, List.flatMap_def]
          congr 2
          refine List.map_congr_left fun x hx => ?_
          exact (Command.serverRead_taken (hE.sync x (List.mem_of_mem_take hx))).symm)
        (by rw [hs.reads, ← List.map_take, List.take_take, Nat.min_eq_left (by omega)]) hs.phase
      rw [List.length_map, List.length_take] at this
      omega
    · exact hge
  have hele : (ClientView.of A).ended.length ≤ E.length := by
    rcases Nat.lt_or_ge E.length (ClientView.of A).ended.length with h1 | h1
    · obtain ⟨x, hx, -⟩ := hc.ended E.length _ (List.getElem?_eq_getElem h1)
      simp at hx
    · exact h1
  have hek := hread _ _ hele (hgiven.trans hco)
  rcases hw with ⟨-, hrem⟩ | ⟨hd, cmd, q, hrem, hsne, hcase⟩
  · unfold ClientView.remaining at hrem
    rw [hf3, List.drop_eq_nil_iff] at hrem
    have := hs.le
    rw [List.take_of_length_le (by omega)]
    exact ⟨rfl, by omega⟩
  · exfalso
    have hx : E[(ClientView.of A).ended.length]? = some (hd, cmd) := by
      rw [← hEd, hA]
      exact ClientView.of_remaining_get hrem
    have hmem := List.mem_of_getElem? hx
    have hreg := hE.regular _ hmem
    have hce := hE.roundTrip _ hmem
    have hsync := hE.sync _ hmem
    obtain ⟨o, ho⟩ := Command.body_of_regular hreg
    simp only at ho hreg hce hsync
    have hlt := (List.getElem?_eq_some_iff.mp hx).1
    rcases hcase with ⟨-, -, pre, d, post, henc, hsent, hrel⟩ | ⟨g, -⟩ | ⟨g, -⟩
    · have hrel' : (ClientView.of A).released ≤ syncs (cmd.transmitted L os) := by
        rcases hc.current with ⟨h0, -⟩ | ⟨y, hy, -, h0⟩
        · exact absurd h0 hsne
        · rw [hx] at hy
          cases hy
          exact h0
      have hsy : syncs pre < syncs (L.encodeCommand cmd) := by
        rw [henc, syncs_append]
        simp only [syncs]
        omega
      rcases Nat.lt_or_ge (ClientView.of A).ended.length k with hlt' | hge
      · -- the answer was read
        have h2 := take_flatMap_length' (fun x : RawHandle × Command => x.2.answers L os) (l := E) (Nat.succ_le_of_lt hlt')
        rw [Nat.succ_eq_add_one, take_succ_flatMap _ hx, List.length_append] at h2
        simp only at h2
        cases hacc : cmd.accepted L os with
        | true =>
          rw [Command.answers_accepted hacc] at h2
          rcases Command.transmitted_cases hsync with ⟨-, e2⟩ | ⟨e1, -⟩
          · rw [e2] at h2
            omega
          · rw [hacc] at e1; cases e1
        | false =>
          obtain ⟨text, -, t2⟩ := Command.answers_rejected hO hacc
          rw [t2, List.length_append, List.length_replicate, List.length_singleton] at h2
          omega
      · have hke : k = (ClientView.of A).ended.length := by omega
        rcases Nat.lt_or_ge (syncs pre) (syncs (cmd.transmitted L os)) with hs1 | hs1
        · -- the literal is accepted
          obtain ⟨a1, a2⟩ := Command.announces_transmitted hce henc hs1
          have hun : serverUnread B = wire pre := by
            have h3 := hs.given
            rw [hgiven, hco, hs.taken, hke, List.append_cancel_left_eq, hsent] at h3
            exact h3.symm
          exact h.no_deadlock hL hO hrt hA hB hdec hrem hreg henc hsent hrel hce a1 a2 hch1 hs.phase hun
        · -- the literal is rejected
          rcases Command.transmitted_cases hsync with ⟨-, e2⟩ | ⟨e1, d', post', e2, -⟩
          · rw [e2] at hs1
            omega
          · have hpre := syncs_unique henc e2 (by omega)
            have := hread ((ClientView.of A).ended.length + 1) [] hlt (by
              rw [hgiven, hco, take_succ_flatMap _ hx, List.append_nil, hsent, hpre]
              rfl)
            omega
    · simp [Command.isAuthenticate, ho] at g
    · simp [Command.isIdle, ho] at g

end ImapFlow
