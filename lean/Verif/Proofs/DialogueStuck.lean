import Verif.Proofs.DialogueRun
import Verif.Proofs.NetDrained

/-!
# Dialogues: what holds when nothing moves
-/

namespace ImapFlow

variable {L : Lib} {gc gs : HandleGenerator} {oc : ClientOptions} {os : ServerOptions} {gr : Greeting} {n : Net}
  {T : List NItem} {A : List CItem} {B : List SItem} {D : List ServerEvent} {fl : Option Underway}

/-- A starving server has no complete message. -/
theorem Starving.not_taken {p : ServerPhase} {w X : Bytes} {e : ServerEvent} (h : Starving L os p X)
    (ht : Taken L os p w e) (hw : w <+: X) : False := by
  have hc := ht.complete
  cases p with
  | command => exact Complete.not_unfinished hc hw h.1
  | authenticate => exact Complete.not_unfinished hc hw h.1
  | idlePending => exact hc
  | idle => exact Complete.not_unfinished hc hw h.1

theorem serverUnread_eq {s : Server} {o : ServerOptions} (hinv : s.Inv L o (ServerView.of gr B))
    (h : Together L os gr A B D fl) (hg : serverGiven B = clientOutput A) {X : Bytes}
    (hX : said L (ClientView.of A).saidBefore ++ (ClientView.of A).sent = said L (serverHeard B) ++ X) :
    serverUnread B = X := by
  rw [Server.given_eq hinv, h.taken, h.output, hX] at hg
  exact List.append_cancel_left hg

/-- Client and server wait for input, and everything was transmitted and read. -/
theorem Together.turn (h : Together L os gr A B D fl) {sops : List ServerOp} {s : Server}
    (hn : Now L (ClientView.of A)) (hw : Waiting L (ClientView.of A))
    (hst : (Server.new gs os gr).trace L sops = .ok (s, B ++ [.starved])) (hO : ServerOptions.Built L os) (hF : FairClient L os A)
    (hg : serverGiven B = clientOutput A) (hdec : (clientDecoded L A).length = (serverOutputs B).length) :
    D = [] ∧ fl = none ∧ Turn (ClientView.of A) (serverPhase B) (serverDialogue B) := by
  obtain ⟨s1, hinv⟩ := Server.prefix_inv hst
  obtain ⟨-, hstarve, -⟩ := Server.trace_guard hst
  rw [ServerView.of_phase, ServerView.of_unread] at hstarve
  have hF' : FairClient L os (A ++ []) := by rw [List.append_nil]; exact hF
  have hsane := hF'.sane
  have hsaid := h.core.said
  rw [hsaid] at hsane
  have hsane : ∀ e ∈ D, Sane L os e := fun e he => hsane e (List.mem_append_right _ he)
  have hunread := h.unread hn hinv (by rw [hg]; exact List.prefix_rfl)
  -- nothing complete is left
  have nothing : ∀ e D', D = e :: D' → e.bytes L <+: serverUnread B → False := by
    rintro e D' rfl hp
    exact hstarve.not_taken ((hsane e List.mem_cons_self).taken h.core.sayable).1 hp
  -- nothing is under way
  have hfl : fl = none := by
    cases hfl : fl with
    | none => rfl
    | some f =>
      exfalso
      rw [hfl] at h
      obtain ⟨hpart, hall⟩ := C25_server_partial hst
      have hflight := h.flight
      rw [hdec] at hflight
      have hmem : f ∈ ((serverLog gr B).drop (serverOutputs B).length).filterMap Prod.snd := by
        rw [hflight]; simp
      obtain ⟨⟨m, o⟩, hm, ho⟩ := List.mem_filterMap.mp hmem
      have ho : o = some f := ho
      subst ho
      have hm' : m ∈ (serverMessages gr B).drop (serverOutputs B).length := by
        rw [← serverLog_messages, ← List.map_drop]
        exact List.mem_map.mpr ⟨_, hm, rfl⟩
      cases f with
      | literal =>
        obtain ⟨hd, r, rfl⟩ := hpart m hm'
        cases serverLog_literal hO hst h.accepted (List.mem_of_mem_drop hm)
      | answer a =>
        have hD := h.core.answer_nothing
        rw [hD] at hunread
        have hun : serverUnread B = [] := List.prefix_nil.mp hunread
        have hlit : (ServerView.of gr B).literals = [] := by
          obtain ⟨-, -, hguard⟩ := Server.trace_guard hst
          cases hl : (ServerView.of gr B).literals with
          | nil => rfl
          | cons q ls =>
            exfalso
            by_cases hp : (ServerView.of gr B).phase = .command
            · have := ((hguard hp).2 q).1 (by rw [hl]; simp)
              obtain ⟨⟨r, hr⟩, k, p, l, e, rfl, -, ⟨a, rfl, -⟩, -⟩ := this
              rw [ServerView.of_unread, hun] at hr
              simp at hr
            · rw [hinv.literals_nil hp] at hl
              cases hl
        have hq : (ServerView.of gr B).quiet ≠ true := fun hq => Server.own_literal hst h.accepted (.inr hq) hlit
        have hall := hall fun T0 hT => hq (by rw [hT, ServerView.of_snoc]; rfl)
        rw [hall, List.drop_length] at hm'
        cases hm'
  subst hfl
  -- the command in progress, if the client waits for a literal
  have short : ∀ x, (ClientView.of A).current = some x → x.2.isRegular = true → D = [] → False := by
    intro x hc hreg hD
    obtain ⟨q, hq⟩ := ClientView.remaining_of_current hc
    have hget := ClientView.of_remaining_get (A' := []) hq
    rw [List.append_nil] at hget
    have hrt := hF.commands.roundTrip x (List.mem_of_getElem? hget)
    rcases hw with ⟨hf, -⟩ | ⟨h', cmd, q', hr, hs, hcase⟩
    · exact ClientView.current_sent hc hf.1
    · have hx : (h', cmd) = x := (List.cons.inj (hr.symm.trans hq)).1
      subst hx
      rcases hcase with ⟨-, hd, pre, d, post, e1, e2, e3⟩ | ⟨ha, -⟩ | ⟨ha, -⟩
      · have hlen := congrArg List.length hg
        rw [Server.given_eq hinv, h.taken, h.output] at hlen
        rw [hD, List.append_nil, ClientView.said_some hc] at hsaid
        rw [← hsaid, said_append, said_saidNow, e2, e1, wire_append, wire_cons] at hlen
        have := List.length_pos_iff.mpr (CommandEncodes.after hrt e1)
        simp only [List.length_append, Fragment.data] at hlen this
        omega
      · exact Command.regular_not_authenticate hreg ha
      · exact Command.regular_not_idle hreg ha
  have notDone : ∀ x, (ClientView.of A).current = some x → x.2.isIdle = true → (ClientView.of A).doneSet = true → False := by
    intro x hc hidle hdone
    obtain ⟨q, hq⟩ := ClientView.remaining_of_current hc
    rcases hw with ⟨hf, -⟩ | ⟨h', cmd, q', hr, hs, hcase⟩
    · exact ClientView.current_sent hc hf.1
    · have hx : (h', cmd) = x := (List.cons.inj (hr.symm.trans hq)).1
      subst hx
      rcases hcase with ⟨ha, -⟩ | ⟨ha, -⟩ | ⟨-, -, -, -, hd⟩
      · exact Command.regular_not_idle ha hidle
      · exact Command.authenticate_not_idle ha hidle
      · rw [hdone] at hd; cases hd
  -- everything that was said was handed out
  have whole : said L (ClientView.of A).saidBefore ++ (ClientView.of A).sent = said L (ClientView.of A).said → D = [] := by
    intro hX
    rw [hsaid, said_append] at hX
    have hun := serverUnread_eq hinv h hg hX
    cases hD : D with
    | nil => rfl
    | cons e D' =>
      exfalso
      refine nothing e D' hD ?_
      rw [hun, hD, said_cons]
      exact List.prefix_append ..
  have wholeOf : ∀ x, (ClientView.of A).current = some x → x.2.isRegular = false → D = [] := by
    intro x hc hx
    refine whole ?_
    rw [ClientView.said_some hc, said_append, ← hw.sent hn hc hx]
  have hj := h.core.joint
  cases hj with
  | fresh h1 h2 =>
    have hf := hn.of_none h1
    have hD := whole (by rw [ClientView.said_none h1, hf.1, List.append_nil])
    subst hD
    refine ⟨rfl, rfl, ?_⟩
    rcases h2 with ⟨h2, h3, -⟩ | ⟨-, _, _, -, -, h4, -⟩
    · refine .idle h1 ?_ h2 h3
      rcases hw with ⟨-, hr⟩ | ⟨_, _, _, -, hs, -⟩
      · exact hr
      · exact absurd hf.1 hs
    · cases h4
  | @saying D1 x h1 h2 h3 h4 h5 h6 =>
    exfalso
    cases hreg : x.2.isRegular with
    | false => have := wholeOf x h1 hreg; simp at this
    | true =>
      obtain ⟨q, hq⟩ := ClientView.remaining_of_current h1
      have hget := ClientView.of_remaining_get (A' := []) hq
      rw [List.append_nil] at hget
      have hrt := hF.commands.roundTrip x (List.mem_of_getElem? hget)
      have hfit := hF.commands.fits x (List.mem_of_getElem? hget)
      have hbef := Core.before_saying hsaid h1 h2 h3
      rcases hw with ⟨hf, -⟩ | ⟨h', cmd, q', hr, hs, hcase⟩
      · exact ClientView.current_sent h1 hf.1
      · have hx : (h', cmd) = x := (List.cons.inj (hr.symm.trans hq)).1
        subst hx
        rcases hcase with ⟨-, hd, pre, d, post, e1, e2, e3⟩ | ⟨ha, -⟩ | ⟨ha, -⟩
        · have hun := serverUnread_eq hinv h hg (X := said L D1 ++ wire pre) (by
            rw [hbef, said_append, e2, List.append_assoc])
          cases hD1 : D1 with
          | cons e D' =>
            refine nothing e (D' ++ [cmd.event]) (by rw [hD1]; rfl) ?_
            rw [hun, hD1, said_cons, List.append_assoc]
            exact List.prefix_append ..
          | nil =>
            subst hD1
            rcases h6 with ⟨hp, -, -⟩ | ⟨-, _, _, -, -, h7, -⟩
            · have := Server.literal_starved hst hp hrt hfit e1 hun
              have hcount := h.core.count
              rw [hbef, List.append_nil] at hcount
              simp only [flightLiterals] at hcount
              omega
            · cases h7
        · exact Command.regular_not_authenticate hreg ha
        · exact Command.regular_not_idle hreg ha
  | heard x h1 h2 h3 h4 =>
    exfalso
    rcases h4 with h4 | ⟨h4, h5⟩
    · exact short x h1 h4 rfl
    · exact notDone x h1 h4 h5
  | authTalk x h1 h2 h3 h4 h5 h6 h7 =>
    have hD := wholeOf x h1 (by
      obtain ⟨m, ir, hb⟩ := Command.body_of_authenticate h2
      simp [Command.isRegular, hb])
    subst hD
    refine ⟨rfl, rfl, ?_⟩
    simp only [List.length_nil] at h6
    rcases Nat.eq_zero_or_pos (serverDialogue B).asked with h0 | h0
    · exact .authenticateServer x.1 x.2 h1 h2 h3 h4 h0 (by omega)
    · exact .authenticateClient x.1 x.2 h1 h2 h3 h4 (by omega) (by omega)
  | idlePending x h1 h2 h3 h4 h5 => exact ⟨rfl, rfl, .idleServer x.1 x.2 h1 h2 h3 h4 h5⟩
  | idleOn x h1 h2 h3 h4 h5 h6 => exact ⟨rfl, rfl, .idleClient x.1 x.2 h1 h2 h3 h4 h5 h6⟩
  | idleDone x h1 h2 h3 h4 h5 => exact (notDone x h1 h2 h5).elim

/-! ## Stuck systems -/

theorem Together.unstarve (h : Together L os gr (A ++ [.starved]) (B ++ [.starved]) D fl) : Together L os gr A B D fl := by
  have eA : ClientView.of (A ++ [.starved]) = ClientView.of A := by rw [ClientView.of_snoc]; rfl
  have eH : serverHeard (B ++ [.starved]) = serverHeard B := by rw [serverHeard_snoc]; exact List.append_nil _
  obtain ⟨h1, h2, h3, h4, h5, h6, h7⟩ := h
  rw [eA, eH, serverPhase_snoc, serverDialogue_snoc, accepts_snoc] at h1
  refine ⟨h1, ?_, ?_, fun e rs hm => h4 e rs (List.mem_append_left _ hm), ?_, ?_, fun i hi => h7 i (List.mem_append_left _ hi)⟩
  · rw [eA, clientOutput_append] at h2
    rw [← h2]
    simp [clientOutput, CItem.outputs]
  · rw [eH, serverTaken_append] at h3
    rw [← h3]
    simp [serverTaken, SItem.taken]
  · rw [serverLog_snoc, clientDecoded_append] at h5
    simpa [SItem.log, clientDecoded, CItem.decoded] using h5
  · rw [serverAnswers_snoc, clientAnswers_snoc] at h6
    simpa [SItem.answer?, CItem.answer?] using h6

/-- The items of a last call that reports nothing do not concern the dialogue. -/
theorem dialogue_silent {U : List SItem} (hU : ∀ i ∈ U, i = .starved ∨ i = .quiet ∨ ∃ p rs, i = .literal p rs) (S : List SItem) :
    serverHeard (S ++ U) = serverHeard S ∧ serverAnswers (S ++ U) = serverAnswers S ∧ serverPhase (S ++ U) = serverPhase S ∧
    serverDialogue (S ++ U) = serverDialogue S ∧ (OrderlyServer S → OrderlyServer (S ++ U)) := by
  induction U using snocInduction with
  | nil => rw [List.append_nil]; exact ⟨rfl, rfl, rfl, rfl, id⟩
  | snoc U i ih =>
    obtain ⟨h1, h2, h3, h4, h5⟩ := ih fun j hj => hU j (List.mem_append_left _ hj)
    have hi := hU i (by simp)
    rw [← List.append_assoc, serverHeard_snoc, serverAnswers_snoc, serverPhase_snoc, serverDialogue_snoc, h1, h2, h3, h4]
    have key : i.heard? = none ∧ i.answer? = none ∧ i.phase (serverPhase S) = serverPhase S ∧
        (serverDialogue S).observe i = serverDialogue S ∧ ∀ d : ServerDialogue, d.Allows i := by
      rcases hi with rfl | rfl | ⟨p, rs, rfl⟩ <;> exact ⟨rfl, rfl, rfl, rfl, fun _ => trivial⟩
    obtain ⟨k1, k2, k3, k4, k5⟩ := key
    refine ⟨by rw [k1]; simp, by rw [k2]; simp, k3, k4, ?_⟩
    intro hS S1 j S2 hj
    rcases List.eq_nil_or_concat S2 with rfl | ⟨S3, l, rfl⟩
    · have := List.append_inj' hj rfl
      cases this.2
      exact k5 _
    · rw [List.concat_eq_append, ← List.cons_append, ← List.append_assoc] at hj
      have := List.append_inj' hj rfl
      exact h5 hS S1 j S3 this.1

theorem dialogue_silent_client {U : List CItem} (hU : ∀ i ∈ U, i = .starved ∨ ∃ w, i = .released w) (A : List CItem) :
    clientAnswers (A ++ U) = clientAnswers A ∧ (A ++ U).filterMap CItem.data? = A.filterMap CItem.data? ∧
    clientEnqueued (A ++ U) = clientEnqueued A ∧
    (ClientView.of (A ++ U)).said = (ClientView.of A).said ∧
    ∀ p d, Turn (ClientView.of (A ++ U)) p d → Turn (ClientView.of A) p d := by
  induction U using snocInduction with
  | nil => rw [List.append_nil]; exact ⟨rfl, rfl, rfl, rfl, fun _ _ h => h⟩
  | snoc U i ih =>
    obtain ⟨h1, h2, h3, h4, h5⟩ := ih fun j hj => hU j (List.mem_append_left _ hj)
    have hi := hU i (by simp)
    rw [← List.append_assoc, clientAnswers_snoc, ClientView.of_snoc, List.filterMap_append, clientEnqueued_append, h1, h2, h3]
    rcases hi with rfl | ⟨w, rfl⟩
    · exact ⟨List.append_nil _, List.append_nil _, List.append_nil _, h4, h5⟩
    · refine ⟨List.append_nil _, List.append_nil _, List.append_nil _, h4, ?_⟩
      intro p d ht
      refine h5 p d ?_
      cases ht with
      | idle a b c e => exact .idle a b c e
      | authenticateServer h' cmd a b c e f g => exact .authenticateServer h' cmd a b c e f g
      | authenticateClient h' cmd a b c e f g => exact .authenticateClient h' cmd a b c e f g
      | idleServer h' cmd a b c e f => exact .idleServer h' cmd a b c e f
      | idleClient h' cmd a b c e f g => exact .idleClient h' cmd a b c e f g

/-- If both sides asked for input and nothing is on the way, everything said was heard, every answer was understood,
and it is clear whose turn it is. -/
theorem Net.Linked.turn_starved (hL : L.Lawful) (hl : Net.Linked L gc oc gs os gr n T) (hO : ServerOptions.Built L os)
    (hrt : ∀ m ∈ serverMessages gr (serverItems T), m.RoundTrip L oc) (hmax : 0 < os.maxCommandSize)
    (hF : FairClient L os (clientItems T)) (hP : OrderlyServer (serverItems T)) {A : List CItem} {B : List SItem}
    (hA : clientItems T = A ++ [.starved]) (hB : serverItems T = B ++ [.starved]) (h1 : n.toServer = [])
    (h2 : n.toClient = []) :
    serverHeard (serverItems T) = (ClientView.of (clientItems T)).said ∧
    clientAnswers (clientItems T) = serverAnswers (serverItems T) ∧
    Turn (ClientView.of (clientItems T)) (serverPhase (serverItems T)) (serverDialogue (serverItems T)) := by
  obtain ⟨D, fl, ht⟩ := hl.together hL hO hrt hmax hF hP (P := T) (Q := []) (List.append_nil _).symm
  obtain ⟨cops, hct⟩ := hl.client
  obtain ⟨sops, hst⟩ := hl.server
  obtain ⟨hdec, hgr⟩ := hl.all_read hL hrt h2 hA
  have hle := hl.output.1
  have hgiven := hl.toServer
  have hA' := hA
  have hB' := hB
  rw [hA] at ht hct hF hgiven
  rw [hB] at ht hst hgiven hdec hgr hle
  have hout : serverOutputs (B ++ [.starved]) = serverOutputs B := by simp [serverOutputs]
  rw [hout] at hdec hgr hle
  have eA : ClientView.of (A ++ [.starved]) = ClientView.of A := by rw [ClientView.of_snoc]; rfl
  have hw := C25_client_nothing_to_send hL hct (hgr.mpr (Server.starved_greeting hst))
  have hFA : FairClient L os A := by
    refine ⟨?_, fun d hd => hF.datas d (by rw [List.filterMap_append]; exact List.mem_append_left _ hd), hF.done⟩
    have := hF.commands
    rw [clientEnqueued_append] at this
    simpa [clientEnqueued, CItem.enqueues] using this
  obtain ⟨rfl, rfl, hturn⟩ := ht.unstarve.turn (Client.now hL hct) hw hst hO hFA
    (by
      rw [h1, List.append_nil] at hgiven
      simpa [serverGiven, clientOutput, SItem.given, CItem.outputs] using hgiven)
    (by
      rw [hdec, List.length_map, List.length_take]
      omega)
  have hsaid := ht.core.said
  have hans := ht.answers
  rw [List.append_nil, ← hA', ← hB'] at hsaid
  rw [← hA', ← hB'] at hans
  refine ⟨hsaid.symm, ?_, ?_⟩
  · rw [hans]; exact (List.append_nil _).symm
  · rw [hA', eA, hB', serverPhase_snoc, serverDialogue_snoc]
    exact hturn

/-- In a stuck system everything said was heard, every answer was understood, and it is clear whose turn it is. -/
theorem Net.Linked.turn (hL : L.Lawful) (h : Net.Linked L gc oc gs os gr n T) (hO : ServerOptions.Built L os)
    (hrt : ∀ m ∈ serverMessages gr (serverItems T), m.RoundTrip L oc) (hmax : 0 < os.maxCommandSize)
    (hF : FairClient L os (clientItems T)) (hP : OrderlyServer (serverItems T)) (hs : n.Stuck L) :
    serverHeard (serverItems T) = (ClientView.of (clientItems T)).said ∧
    clientAnswers (clientItems T) = serverAnswers (serverItems T) ∧
    Turn (ClientView.of (clientItems T)) (serverPhase (serverItems T)) (serverDialogue (serverItems T)) := by
  obtain ⟨n', T', A, B, hl, hA, hB, h1, h2, e1, -, e3, -, U, e5, -, e6, e7⟩ := h.settle hO hs
  have eC : clientItems T' = clientItems T ++ clientItems U := by rw [e5, clientItems_append]
  have eS : serverItems T' = serverItems T ++ serverItems U := by rw [e5, serverItems_append]
  obtain ⟨s1, s2, s3, s4, s5⟩ := dialogue_silent e6 (serverItems T)
  obtain ⟨c1, c2, c3, c4, c5⟩ := dialogue_silent_client e7 (clientItems T)
  rw [← eS] at s1 s2 s3 s4 s5
  rw [← eC] at c1 c2 c3 c4 c5
  have hF' : FairClient L os (clientItems T') := ⟨by rw [c3]; exact hF.commands, by rw [c2]; exact hF.datas, hF.done⟩
  obtain ⟨k1, k2, k3⟩ := hl.turn_starved hL hO (by rw [e3]; exact hrt) hmax hF' (s5 hP) hA hB h1 h2
  rw [s1, c4] at k1
  rw [s2, c1] at k2
  rw [s3, s4] at k3
  exact ⟨k1, k2, c5 _ _ k3⟩

end ImapFlow
