import Verif.Proofs.DialogueStuck

/-!
# At rest, the client has read every message of the server
-/

namespace ImapFlow

variable {L : Lib} {gc gs : HandleGenerator} {oc : ClientOptions} {os : ServerOptions} {gr : Greeting} {n : Net} {T : List NItem}

/-- If both sides asked for input and nothing is on the way, every message of the server was handed out and decoded by the
client, whatever the dialogue is about. -/
theorem Net.Linked.drained_fair (hL : L.Lawful) (hl : Net.Linked L gc oc gs os gr n T) (hO : ServerOptions.Built L os)
    (hrt : ∀ m ∈ serverMessages gr (serverItems T), m.RoundTrip L oc) (hmax : 0 < os.maxCommandSize)
    (hF : FairClient L os (clientItems T)) (hP : OrderlyServer (serverItems T)) {A : List CItem} {B : List SItem}
    (hA : clientItems T = A ++ [.starved]) (hB : serverItems T = B ++ [.starved]) (h1 : n.toServer = [])
    (h2 : n.toClient = []) :
    clientDecoded L (clientItems T) = (serverMessages gr (serverItems T)).map ServerMessage.content := by
  obtain ⟨hsaid, -⟩ := hl.turn_starved hL hO hrt hmax hF hP hA hB h1 h2
  obtain ⟨D, fl, ht⟩ := hl.together hL hO hrt hmax hF hP (P := T) (Q := []) (List.append_nil _).symm
  obtain ⟨cops, hct⟩ := hl.client
  obtain ⟨sops, hst⟩ := hl.server
  obtain ⟨hdec, -⟩ := hl.all_read hL hrt h2 hA
  have hD : D = [] := by
    have := ht.core.said
    rw [hsaid] at this
    exact List.self_eq_append_right.1 this
  subst hD
  have hgiven := hl.toServer
  have hd : clientDecoded L (clientItems T) = clientDecoded L A := by
    rw [hA, clientDecoded_append]
    simp [clientDecoded, CItem.decoded]
  rw [hA] at ht hct hgiven
  rw [hB] at ht hst hgiven
  obtain ⟨s1, hinv⟩ := Server.prefix_inv hst
  have ht := ht.unstarve
  have hun : serverUnread B = [] := by
    refine List.prefix_nil.mp (ht.unread (Client.now hL hct) hinv ?_)
    rw [h1, List.append_nil] at hgiven
    have : serverGiven B = clientOutput A := by
      simpa [serverGiven, clientOutput, SItem.given, CItem.outputs] using hgiven
    rw [this]
    exact List.prefix_rfl
  have hlit : (ServerView.of gr B).literals = [] := by
    obtain ⟨-, -, hguard⟩ := Server.trace_guard hst
    cases hl : (ServerView.of gr B).literals with
    | nil => rfl
    | cons q ls =>
      exfalso
      by_cases hp : (ServerView.of gr B).phase = .command
      · have := ((hguard hp).2 q).1 (by rw [hl]; simp)
        obtain ⟨⟨r, hr⟩, k, p, l, e, rfl, -, ⟨a, rfl, -⟩, -⟩ := this
        rw [ServerView.of_unread, hun] at hr
        simp at hr
      · rw [hinv.literals_nil hp] at hl
        cases hl
  have hq : (ServerView.of gr B).quiet ≠ true := fun hq => Server.own_literal hst ht.accepted (.inr hq) hlit
  obtain ⟨-, hall⟩ := C25_server_partial hst
  have hall := hall fun T0 hT => hq (by rw [hT, ServerView.of_snoc]; rfl)
  have e1 : serverOutputs (serverItems T) = serverOutputs B := by rw [hB]; simp [serverOutputs]
  have e2 : serverMessages gr (serverItems T) = serverMessages gr B := by
    rw [hB]; simp [serverMessages, SItem.enqueues]
  rw [hd, hdec, e1, e2, hall, List.take_length]

end ImapFlow
