import Verif.Proofs.NetDone
import Verif.Proofs.ServerReplies

/-!
# A server that waits for input has nothing to send, if no literal was rejected

The server may ask for input although responses are queued (`C25_server_false`), but only just after a
response that it generated itself.  If this response accepts a literal, the client goes on sending.
-/

namespace ImapFlow

variable {L : Lib}

/-- A continuation request of the server belongs to a command that was not read completely. -/
theorem Server.own_literal {g : HandleGenerator} {o : ServerOptions} {gr : Greeting} {ops : List ServerOp} {s : Server}
    {T1 T2 : List SItem} (h : (Server.new g o gr).trace L ops = .ok (s, T1 ++ T2)) (hf : ∀ e rs, .failed e rs ∉ T1) :
    (0 < Server.ownPending (.of gr T1) ∨ (ServerView.of gr T1).quiet = true) → (ServerView.of gr T1).literals ≠ [] := by
  induction T1 using snocInduction generalizing T2 with
  | nil => rintro (h | h) <;> cases h
  | snoc T i ih =>
    have h' : (Server.new g o gr).trace L ops = .ok (s, T ++ (i :: T2)) := by simpa using h
    have ih := ih h' fun e rs hm => hf e rs (List.mem_append_left _ hm)
    obtain ⟨hp1, hp2⟩ := Server.ownPending_le h'
    obtain ⟨s1, hinv⟩ := Server.prefix_inv h'
    have hg := Server.trace_guard h'
    have hle : (ServerView.of gr T).finished ≤ (ServerView.of gr T).messages.length := by
      obtain ⟨-, ⟨-, hb, -, hd⟩, -⟩ := hinv
      cases hc : s1.sendState.currentMessage with
      | none => rw [hc] at hd; simp only at hd; omega
      | some m => rw [hc] at hd; have := hd.1; omega
    have hfi : ∀ e rs, i ≠ .failed e rs := fun e rs he => hf e rs (by simp [he])
    have hnil := fun hp => hinv.literals_nil hp
    rw [ServerView.of_snoc]
    generalize ServerView.of gr T = v at ih hp1 hp2 hg hle hnil
    clear hf hinv h h'
    have same : ∀ v' : ServerView, v'.messages = v.messages → v'.finished = v.finished → v'.quiet = false →
        v'.literals = v.literals → (0 < ownPending v' ∨ v'.quiet = true) → v'.literals ≠ [] := by
      intro v' h1 h2 h3 h4 h5
      have e : ownPending v' = ownPending v := by unfold ownPending; rw [h1, h2]
      rw [e, h3] at h5
      rw [h4]
      exact ih (.inl (h5.resolve_right nofun))
    have user : ∀ (v' : ServerView) (hd : RawHandle) (r : Response), v'.messages = v.messages ++ [.response (some hd) r] →
        v'.finished = v.finished → v'.quiet = false → (v'.literals = v.literals ∨ v.literals = []) →
        (0 < ownPending v' ∨ v'.quiet = true) → v'.literals ≠ [] := by
      intro v' hd r h1 h2 h3 h4 h5
      have e : ownPending v' = ownPending v := by
        unfold ownPending
        rw [h1, h2, List.drop_append_of_le_length hle, List.countP_append]
        simp [ServerMessage.own]
      rw [e, h3] at h5
      have h6 := ih (.inl (h5.resolve_right nofun))
      rcases h4 with h4 | h4
      · rw [h4]; exact h6
      · exact (h6 h4).elim
    cases i with
    | enqueue hd r => exact user _ _ _ rfl rfl rfl (.inl rfl)
    | authContinue q r =>
      cases r with
      | error _ => exact same _ rfl rfl rfl rfl
      | ok _ => exact user _ _ _ rfl rfl rfl (.inl rfl)
    | authFinish q r =>
      cases r with
      | error _ => exact same _ rfl rfl rfl rfl
      | ok _ =>
        rcases hg with ⟨h1, -⟩ | ⟨-, h1⟩
        · exact user _ _ _ rfl rfl rfl (.inr (hnil (by rw [h1]; simp)))
        · cases h1
    | idleAccept q r =>
      cases r with
      | error _ => exact same _ rfl rfl rfl rfl
      | ok _ =>
        rcases hg with ⟨h1, -⟩ | ⟨-, h1⟩
        · exact user _ _ _ rfl rfl rfl (.inr (hnil (by rw [h1]; simp)))
        · cases h1
    | idleReject q r =>
      cases r with
      | error _ => exact same _ rfl rfl rfl rfl
      | ok _ =>
        rcases hg with ⟨h1, -⟩ | ⟨-, h1⟩
        · exact user _ _ _ rfl rfl rfl (.inr (hnil (by rw [h1]; simp)))
        · cases h1
    | input b => exact same _ rfl rfl rfl rfl
    | output b => exact same _ rfl rfl rfl rfl
    | starved => exact same _ rfl rfl rfl rfl
    | received w e =>
      intro h5
      exfalso
      have h0 : ownPending v = 0 := by
        obtain ⟨⟨hc1, hc2⟩, -⟩ := hg
        rcases hc2 with hc2 | hc2
        · exact hp2 hc2
        · unfold ownPending
          rw [hc1, hc2]; simp
      rcases h5 with h5 | h5
      · have : 0 < ownPending v := h5
        omega
      · cases h5
    | literal p rs => intro _; simp [ServerView.observe]
    | failed e rs => exact (hfi e rs rfl).elim
    | sent e =>
      intro h5
      obtain ⟨-, m, hm, he⟩ := hg
      have hd : v.messages.drop v.finished = m :: v.messages.drop (v.finished + 1) := by
        obtain ⟨hlt, rfl⟩ := List.getElem?_eq_some_iff.mp hm
        exact List.drop_eq_getElem_cons hlt
      have h6 : 0 < (v.messages.drop (v.finished + 1)).countP ServerMessage.own := h5.resolve_right nofun
      refine ih (.inl ?_)
      unfold ownPending
      rw [hd, List.countP_cons]
      omega
    | quiet =>
      intro _
      obtain ⟨-, m, hm, he⟩ := hg
      have hd : v.messages.drop v.finished = m :: v.messages.drop (v.finished + 1) := by
        obtain ⟨hlt, rfl⟩ := List.getElem?_eq_some_iff.mp hm
        exact List.drop_eq_getElem_cons hlt
      refine ih (.inl ?_)
      unfold ownPending
      rw [hd, List.countP_cons, if_pos (m.own_iff.mpr he)]
      omega

variable {gc gs : HandleGenerator} {oc : ClientOptions} {os : ServerOptions} {gr : Greeting} {n : Net} {T : List NItem}

/-- When both sides wait for input and nothing is on the way, every message of the server was handed out and decoded
by the client. -/
theorem Net.Linked.drained (hL : L.Lawful) (h : Net.Linked L gc oc gs os gr n T) (hO : ServerOptions.Built L os)
    (hrt : ∀ m ∈ serverMessages gr (serverItems T), m.RoundTrip L oc) {A : List CItem} {B : List SItem}
    (hA : clientItems T = A ++ [.starved]) (hB : serverItems T = B ++ [.starved])
    (hch1 : n.toServer = []) (hch2 : n.toClient = []) (hmax : 0 < os.maxCommandSize)
    (hc : GoodCommands L os (clientItems T)) :
    clientDecoded L (clientItems T) = (serverMessages gr (serverItems T)).map ServerMessage.content := by
  obtain ⟨hdone, -⟩ := h.done hL hO hrt hA hB hch1 hch2 hmax hc
  obtain ⟨hdec, -⟩ := h.all_read hL hrt hch2 hA
  have hd : clientDecoded L (clientItems T) = clientDecoded L A := by
    rw [hA, clientDecoded_append]
    simp [clientDecoded, CItem.decoded]
  obtain ⟨cops, hct⟩ := h.client
  obtain ⟨sops, hst⟩ := h.server
  have hst' := hst
  rw [hB] at hst'
  obtain ⟨s1, hinv⟩ := Server.prefix_inv hst'
  obtain ⟨k, hk, hreads, hph⟩ := h.commands hL hmax hc hB
  have hf : ∀ e rs, .failed e rs ∉ B := by
    intro e rs hi
    have : SItem.failed e rs ∈ B.filter SItem.reads := List.mem_filter.mpr ⟨hi, rfl⟩
    rw [hreads] at this
    obtain ⟨x, -, hx⟩ := List.mem_map.mp this
    cases hx
  -- everything was read
  have hcmd : serverCommands (serverItems T) = serverCommands B := by
    rw [hB]; simp [serverCommands, SItem.command?]
  have hkl : k = (clientEnqueued (clientItems T)).length := by
    rw [hcmd, serverCommands_filter, hreads, serverCommands_reads] at hdone
    have := congrArg List.length hdone
    simp only [List.length_map, List.length_take] at this
    omega
  have htk : serverTaken B = (clientEnqueued (clientItems T)).flatMap fun x => wire (L.encodeCommand x.2) := by
    rw [serverTaken_filter, hreads, List.flatMap_map, hkl, List.take_length]
    rfl
  have hun : serverUnread B = [] := by
    have hgiven : serverGiven B <+: clientOutput (clientItems T) := by
      have := h.toServer
      rw [hch1, hB] at this
      simp [serverGiven, SItem.given] at this
      rw [← this]
      exact List.prefix_rfl
    have hle := (hgiven.trans (C12_output_prefix hL hct hc.regular hc.accepted)).length_le
    have hge := congrArg List.length (Server.given_eq hinv)
    rw [List.length_append, htk] at hge
    exact List.length_eq_zero_iff.mp (by omega)
  have hlit : (ServerView.of gr B).literals = [] := by
    obtain ⟨-, -, hg⟩ := Server.trace_guard hst'
    cases hl : (ServerView.of gr B).literals with
    | nil => rfl
    | cons q ls =>
      exfalso
      have hp : (ServerView.of gr B).phase = .command := by rw [ServerView.of_phase, hph]
      have := ((hg hp).2 q).1 (by rw [hl]; simp)
      obtain ⟨⟨r, hr⟩, k, p, l, e, rfl, -, ⟨a, rfl, -⟩, -⟩ := this
      rw [ServerView.of_unread, hun] at hr
      simp at hr
  have hq : (ServerView.of gr B).quiet ≠ true := fun hq => Server.own_literal hst' hf (.inr hq) hlit
  obtain ⟨-, hall⟩ := C25_server_partial hst'
  have hall := hall fun T0 hT => hq (by rw [hT, ServerView.of_snoc]; rfl)
  have e1 : serverOutputs (serverItems T) = serverOutputs B := by rw [hB]; simp [serverOutputs]
  have e2 : serverMessages gr (serverItems T) = serverMessages gr B := by
    rw [hB]; simp [serverMessages, SItem.enqueues]
  rw [hd, hdec, e1, e2, hall, List.take_length]

end ImapFlow
