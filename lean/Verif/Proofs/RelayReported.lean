import Verif.Proofs.RelayFed

/-!
# What a client reports when the server is orderly
-/

namespace ImapFlow

variable {L : Lib} {gc gs : HandleGenerator} {oc : ClientOptions} {os : ServerOptions} {gr : Greeting} {n : Net}
  {T P Q : List NItem}

/-- The user of the server sent the response. -/
def UserSent (gr : Greeting) (S : List SItem) (r : Response) : Prop := ∃ h, .response (some h) r ∈ serverMessages gr S

theorem UserSent.mono {S S' : List SItem} {r : Response} (h : UserSent gr S r) : UserSent gr (S ++ S') r := by
  obtain ⟨hd, h⟩ := h
  exact ⟨hd, by rw [serverMessages_append]; exact List.mem_append_left _ h⟩

/-- What the client reports when it has read a message. -/
inductive Reported (gr : Greeting) (S : List SItem) (v : ClientView) : ClientEvent → Prop
  | greeting : Reported gr S v (.greetingReceived gr)
  | data (d : Data) : UserSent gr S (.data d) → Reported gr S v (.dataReceived d)
  | status (st : Status) : UserSent gr S (.status st) → (∀ t b, st = .tagged t b → t ∈ (serverDialogue S).completed) →
      Reported gr S v (.statusReceived st)
  | authContinue (x : RawHandle × Command) (q : ContinuationRequest) : v.current = some x → x.2.isAuthenticate = true →
      v.asked = v.datas.length → UserSent gr S (.continuationRequest q) →
      Reported gr S v (.authenticateContinuationRequestReceived x.1 q)
  | authFinish (x : RawHandle × Command) (ca : CommandAuthenticate) (b : StatusBody) : v.current = some x →
      x.2.isAuthenticate = true → v.asked = v.datas.length → UserSent gr S (.status (.tagged x.2.tag b)) →
      Reported gr S v (.authenticateStatusReceived x.1 ca (.tagged x.2.tag b))
  | idleAccept (x : RawHandle × Command) (q : ContinuationRequest) : v.current = some x → x.2.isIdle = true →
      v.accepted = false → UserSent gr S (.continuationRequest q) → Reported gr S v (.idleAccepted x.1 q)
  | idleReject (x : RawHandle × Command) (b : StatusBody) : v.current = some x → x.2.isIdle = true →
      v.accepted = false → UserSent gr S (.status (.tagged x.2.tag b)) →
      Reported gr S v (.idleRejected x.1 (.tagged x.2.tag b))

theorem serverLog_user {S : List SItem} {m : ServerMessage} {a : Answer} (h : (m, some (.answer a)) ∈ serverLog gr S) :
    UserSent gr S a.response := by
  have hm : m ∈ serverMessages gr S := by
    rw [← serverLog_messages]
    exact List.mem_map.mpr ⟨_, h, rfl⟩
  rcases mem_serverLog h with ⟨-, h⟩ | ⟨S1, i, S2, hS, hi⟩
  · cases h
  · cases i with
    | authContinue q r =>
      cases r with
      | error _ => simp [SItem.log] at hi
      | ok hd =>
        simp only [SItem.log, List.mem_singleton, Prod.mk.injEq] at hi
        obtain ⟨rfl, hi⟩ := hi; cases hi; exact ⟨hd, hm⟩
    | authFinish q r =>
      cases r with
      | error _ => simp [SItem.log] at hi
      | ok hd =>
        simp only [SItem.log, List.mem_singleton, Prod.mk.injEq] at hi
        obtain ⟨rfl, hi⟩ := hi; cases hi; exact ⟨hd, hm⟩
    | idleAccept q r =>
      cases r with
      | error _ => simp [SItem.log] at hi
      | ok hd =>
        simp only [SItem.log, List.mem_singleton, Prod.mk.injEq] at hi
        obtain ⟨rfl, hi⟩ := hi; cases hi; exact ⟨hd, hm⟩
    | idleReject q r =>
      cases r with
      | error _ => simp [SItem.log] at hi
      | ok hd =>
        simp only [SItem.log, List.mem_singleton, Prod.mk.injEq] at hi
        obtain ⟨rfl, hi⟩ := hi; cases hi; exact ⟨hd, hm⟩
    | _ => simp [SItem.log] at hi

theorem Net.Linked.reported (hL : L.Lawful) (h : Net.Linked L gc oc gs os gr n T) (hO : ServerOptions.Built L os)
    (hrt : ∀ m ∈ serverMessages gr (serverItems T), m.RoundTrip L oc) (hmax : 0 < os.maxCommandSize)
    (hF : FairClient L os (clientItems T)) (hP : OrderlyServer (serverItems T)) {w : Bytes} {e : ClientEvent}
    (hT : T = P ++ .client (.received w e) :: Q) :
    Reported gr (serverItems P) (ClientView.of (clientItems P)) e := by
  obtain ⟨D, fl, ht⟩ := h.together hL hO hrt hmax hF hP (P := P) (Q := .client (.received w e) :: Q) hT
  obtain ⟨cops, hct⟩ := h.client
  obtain ⟨sops, hst⟩ := h.server
  have hg := (h.causal P _ hT).2
  have hCT : clientItems T = clientItems P ++ .received w e :: clientItems Q := by rw [hT, clientItems_append]; rfl
  have hST : serverItems T = serverItems P ++ serverItems Q := by rw [hT, serverItems_append]; rfl
  have hnext : ∀ r, (CItem.received w e).decoded L = [r] → ∃ m,
      (serverMessages gr (serverItems P))[(clientDecoded L (clientItems P)).length]? = some m ∧ m.content = r := by
    intro r hr
    obtain ⟨m, h1, -, h2, -⟩ := h.next_message hL hrt hT hr
    exact ⟨m, h1, h2⟩
  rw [hCT] at hct hF
  rw [hST] at hst hP
  generalize clientItems P = A at *
  generalize serverItems P = S at *
  generalize clientItems Q = A' at *
  generalize serverItems Q = S' at *
  obtain ⟨s1, hinv⟩ := Server.prefix_inv hst
  obtain ⟨hw, -, ⟨-, g, rfl, -⟩ | ⟨hgr, r, hr, -⟩⟩ := Client.trace_guard hL hct
  · have hdec : (CItem.received w (.greetingReceived g)).decoded L = [.greeting g] := rfl
    obtain ⟨m, hm, hcont⟩ := hnext _ hdec
    obtain ⟨o, hmem, ⟨rfl, -⟩ | ⟨f, rfl, rfl, -⟩⟩ := ht.next hm
    · rcases serverLog_plain hmem with rfl | ⟨S1, hd, r', S2, hS, rfl⟩
      · cases hcont; exact .greeting
      · cases hcont
    · cases f with
      | literal => rw [serverLog_literal hO hst ht.accepted hmem] at hcont; cases hcont
      | answer a => rw [serverLog_answer hmem] at hcont; cases hcont
  · have hw := hw hgr
    have hdec := response_decoded (L := L) (w := w) (route_response hr)
    obtain ⟨m, hm, hcont⟩ := hnext _ hdec
    obtain ⟨o, hmem, ⟨rfl, -⟩ | ⟨f, rfl, rfl, -⟩⟩ := ht.next hm
    · have hmm : m ∈ serverMessages gr S := List.mem_of_getElem? hm
      rcases serverLog_plain hmem with rfl | ⟨S1, hd, r', S2, hS, rfl⟩
      · cases hcont
      · cases hcont
        have hallow := hP.prefix S1 _ S2 hS
        cases r with
        | data d => cases hr; exact .data d ⟨hd, hmm⟩
        | continuationRequest q => exact hallow.elim
        | status st =>
          have hcomp : ∀ t b, st = .tagged t b → t ∈ (serverDialogue S).completed := by
            rintro t b rfl
            rw [hS]; exact serverDialogue_mono hallow
          have he : e = .statusReceived st := by
            unfold ClientView.route at hr
            split at hr
            · rename_i heq; cases heq
            · rename_i st' heq
              cases heq
              split at hr
              · rename_i hd cmd tag body hc
                have := ht.not_current hF hw hinv hg (hcomp _ _ rfl) hc
                rw [if_neg this] at hr
                cases hr; rfl
              · cases hr; rfl
            · rename_i heq; cases heq
          subst he
          exact .status st ⟨hd, hmm⟩ hcomp
    · cases f with
      | literal =>
        rw [serverLog_literal hO hst ht.accepted hmem] at hcont
        cases hcont
        have hj := ht.core.joint
        generalize hf : some Underway.literal = f at hj
        cases hj with
        | literal x h1 h2 =>
          rw [route_continuation_regular (h := x.1) h1 h2] at hr
          cases hr
        | _ => cases hf
      | answer a =>
        have hu := serverLog_user hmem
        have hc := serverLog_answer hmem
        rw [hcont] at hc
        have hj := ht.core.joint
        cases hj with
        | authContinue x q' h1 h2 h3 h4 h5 h6 =>
          cases hc
          obtain ⟨m, ir, hb⟩ := Command.body_of_authenticate h2
          simp [ClientView.route, Answer.response, h1, hb, h6] at hr
          subst hr
          exact .authContinue x q' h1 h2 h6 hu
        | authFinish x b h1 h2 h3 h4 h5 =>
          cases hc
          obtain ⟨m, ir, hb⟩ := Command.body_of_authenticate h2
          obtain ⟨hx, cmd⟩ := x
          have hb : cmd.body = _ := hb
          simp [ClientView.route, Answer.response, h1, hb] at hr
          subst hr
          exact .authFinish (hx, cmd) _ b h1 h2 h5 hu
        | idleAccept x q' h1 h2 h3 h4 h5 =>
          cases hc
          have hb := Command.body_of_idle h2
          simp [ClientView.route, Answer.response, h1, hb, h5] at hr
          subst hr
          exact .idleAccept x q' h1 h2 h5 hu
        | idleReject x b h1 h2 h3 h4 h5 =>
          cases hc
          have hb := Command.body_of_idle h2
          obtain ⟨hx, cmd⟩ := x
          have hb : cmd.body = _ := hb
          simp [ClientView.route, Answer.response, h1, hb] at hr
          subst hr
          exact .idleReject (hx, cmd) b h1 h2 h5 hu

end ImapFlow
