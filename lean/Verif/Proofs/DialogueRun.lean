import Verif.Proofs.DialogueNet

/-!
# Dialogues: steps of the client, and whole runs
-/

namespace ImapFlow

variable {L : Lib} {gc gs : HandleGenerator} {oc : ClientOptions} {os : ServerOptions} {gr : Greeting} {n : Net}
  {T : List NItem} {A A' : List CItem} {S S' : List SItem} {D : List ServerEvent} {fl : Option Underway} {v : ClientView}

/-! ## Views that differ in other respects -/

theorem SameView.consume (v : ClientView) (b : Bytes) : SameView L v { v with consumed := b } :=
  ⟨rfl, rfl, rfl, rfl, rfl, rfl, rfl, rfl, fun _ _ _ h => h⟩

theorem SameView.give (v : ClientView) (b : Bytes) : SameView L v { v with given := b } :=
  ⟨rfl, rfl, rfl, rfl, rfl, rfl, rfl, rfl, fun _ _ _ h => h⟩

theorem SameView.start (v : ClientView) : SameView L v { v with started := true } :=
  ⟨rfl, rfl, rfl, rfl, rfl, rfl, rfl, rfl, fun _ _ _ h => h⟩

theorem SameView.greet (v : ClientView) (b : Bytes) : SameView L v { v with consumed := b, greeted := true } :=
  ⟨rfl, rfl, rfl, rfl, rfl, rfl, rfl, rfl, fun _ _ _ h => h⟩

theorem SameView.rfl' (v : ClientView) : SameView L v v :=
  ⟨rfl, rfl, rfl, rfl, rfl, rfl, rfl, rfl, fun _ _ _ h => h⟩

theorem SameView.enqueue (hn : Now L v) (hle : v.ended.length ≤ v.enqueued.length) (x : RawHandle × Command) :
    SameView L v { v with enqueued := v.enqueued ++ [x] } where
  before := by
    have : (v.enqueued ++ [x]).zip v.ended = v.enqueued.zip v.ended := by
      have h1 := List.zip_eq_zip_take_min (l₁ := v.enqueued ++ [x]) (l₂ := v.ended)
      have h2 := List.zip_eq_zip_take_min (l₁ := v.enqueued) (l₂ := v.ended)
      rw [h1, h2, Nat.min_eq_right hle, Nat.min_eq_right (by simp; omega), List.take_append_of_le_length hle]
    show ((v.enqueued ++ [x]).zip v.ended).flatMap saidEnded = (v.enqueued.zip v.ended).flatMap saidEnded
    rw [this]
  tags := by
    show ((v.enqueued ++ [x]).take v.ended.length).map _ = (v.enqueued.take v.ended.length).map _
    rw [List.take_append_of_le_length hle]
  current := by
    show (if v.sent = [] then none else ((v.enqueued ++ [x]).drop v.ended.length).head?) =
      if v.sent = [] then none else v.remaining.head?
    split
    · rfl
    · rename_i hs
      obtain ⟨y, q, hr, -⟩ := hn.output hs
      rw [List.drop_append_of_le_length hle, show v.enqueued.drop v.ended.length = y :: q from hr, hr]
      rfl
  released := rfl
  asked := rfl
  datas := rfl
  accepted := rfl
  doneSet := rfl
  pend := fun _ _ _ h => h

/-! ## The bytes of a command that ends -/

theorem ClientView.current_of_remaining {x : RawHandle × Command} {q : List (RawHandle × Command)}
    (hr : v.remaining = x :: q) (hs : v.sent ≠ []) : v.current = some x := by
  simp [ClientView.current, hs, hr]

theorem said_saidNow (x : RawHandle × Command) : said L (v.saidNow x) =
    wire (L.encodeCommand x.2) ++ wireDatas L v.datas ++ if v.doneSet then wire L.encodeIdleDone else [] := by
  rw [ClientView.saidNow, said_append, said_cons, said_datas, Command.event_bytes]
  cases v.doneSet <;> simp [said, ServerEvent.bytes]

/-- A client that waits during AUTHENTICATE or IDLE has handed out everything it said. -/
theorem Waiting.sent (hw : Waiting L v) (hn : Now L v) {x : RawHandle × Command} (hc : v.current = some x)
    (hx : x.2.isRegular = false) : v.sent = said L (v.saidNow x) := by
  rw [said_saidNow]
  rcases hw with ⟨hf, -⟩ | ⟨h, cmd, q, hr, hs, hw⟩
  · exact absurd hf.1 (ClientView.current_sent hc)
  · rw [ClientView.current_of_remaining hr hs] at hc
    cases hc
    rcases hw with ⟨h1, -⟩ | ⟨h1, -, h2, -⟩ | ⟨h1, -, h2, h3, h4⟩
    · rw [h1] at hx; cases hx
    · have := (hn.of_authenticate (ClientView.current_of_remaining hr hs) h1).2.2.1
      simp [h2, this]
    · simp [h3, h2, h4, wireDatas]

/-! ## Reading the next message -/

theorem Together.next {m : ServerMessage} (h : Together L os gr A S D fl)
    (hm : (serverMessages gr S)[(clientDecoded L A).length]? = some m) :
    ∃ o, (m, o) ∈ serverLog gr S ∧
      ((o = none ∧ ((serverLog gr S).drop ((clientDecoded L A).length + 1)).filterMap Prod.snd = fl.toList) ∨
       ∃ f, o = some f ∧ fl = some f ∧ ((serverLog gr S).drop ((clientDecoded L A).length + 1)).filterMap Prod.snd = []) := by
  rw [← serverLog_messages, List.getElem?_map] at hm
  cases he : (serverLog gr S)[(clientDecoded L A).length]? with
  | none => rw [he] at hm; cases hm
  | some mo =>
    obtain ⟨m', o⟩ := mo
    rw [he] at hm
    cases hm
    refine ⟨o, List.mem_of_getElem? he, ?_⟩
    obtain ⟨hlt, hge⟩ := List.getElem?_eq_some_iff.mp he
    have hf := h.flight
    rw [List.drop_eq_getElem_cons hlt, hge] at hf
    cases o with
    | none => exact .inl ⟨rfl, by simpa using hf⟩
    | some f =>
      right
      refine ⟨f, rfl, ?_⟩
      rw [List.filterMap_cons_some (f := Prod.snd) (a := (m', some f)) (b := f) rfl] at hf
      cases fl with
      | none => cases hf
      | some f' =>
        simp only [Option.toList_some, List.cons.injEq] at hf
        exact ⟨by rw [hf.1], hf.2⟩

theorem Together.read {i : CItem} {r : Incoming} {fl' : Option Underway} (h : Together L os gr A S D fl)
    (hi : i.decoded L = [r])
    (hrest : ((serverLog gr S).drop ((clientDecoded L A).length + 1)).filterMap Prod.snd = fl'.toList)
    (hans : flightAnswers fl = i.answer?.toList ++ flightAnswers fl') (hexp : i.Expected)
    (hcore : Core L (ClientView.of (A ++ [i])) (serverHeard S) (serverPhase S) (serverDialogue S) (accepts L os S) D fl')
    (hout : clientOutput (A ++ [i]) = said L (ClientView.of (A ++ [i])).saidBefore ++ (ClientView.of (A ++ [i])).sent) :
    Together L os gr (A ++ [i]) S D fl' where
  core := hcore
  output := hout
  taken := h.taken
  accepted := h.accepted
  flight := by
    rw [clientDecoded_append, List.length_append]
    simpa [clientDecoded, hi] using hrest
  answers := by rw [clientAnswers_snoc, h.answers, hans, List.append_assoc]
  expected := by
    intro j hj
    rcases List.mem_append.mp hj with hj | hj
    · exact h.expected j hj
    · rw [List.mem_singleton.mp hj]; exact hexp

theorem Together.still {i : CItem} {D' : List ServerEvent} (h : Together L os gr A S D fl)
    (hi : i.decoded L = []) (hans : i.answer? = none) (hexp : i.Expected)
    (hcore : Core L (ClientView.of (A ++ [i])) (serverHeard S) (serverPhase S) (serverDialogue S) (accepts L os S) D' fl)
    (hout : clientOutput (A ++ [i]) = said L (ClientView.of (A ++ [i])).saidBefore ++ (ClientView.of (A ++ [i])).sent) :
    Together L os gr (A ++ [i]) S D' fl where
  core := hcore
  output := hout
  taken := h.taken
  accepted := h.accepted
  flight := by
    rw [clientDecoded_append, List.length_append]
    simpa [clientDecoded, hi] using h.flight
  answers := by rw [clientAnswers_snoc, h.answers, hans]; simp
  expected := by
    intro j hj
    rcases List.mem_append.mp hj with hj | hj
    · exact h.expected j hj
    · rw [List.mem_singleton.mp hj]; exact hexp

/-- A tag of a command that was heard completely does not belong to a command for which the client waits. -/
theorem Together.not_current (h : Together L os gr A S D fl) (hF : FairClient L os (A ++ A'))
    (hw : Waiting L (ClientView.of A)) {s : Server} {o : ServerOptions} (hinv : s.Inv L o (ServerView.of gr S))
    (hg : serverGiven S <+: clientOutput A) {t : Tag} (ht : t ∈ (serverDialogue S).completed) {x : RawHandle × Command}
    (hc : (ClientView.of A).current = some x) : t ≠ x.2.tag := by
  obtain ⟨q, hq⟩ := ClientView.remaining_of_current hc
  have hget := ClientView.of_remaining_get (A' := A') hq
  rintro rfl
  rcases h.core.completed _ ht with he | ⟨y, hy, -, hD, hreg | ⟨hidle, hdone⟩⟩
  · obtain ⟨y, hy, hyt⟩ := List.mem_map.mp he
    obtain ⟨k, hk, hky⟩ := List.mem_iff_getElem.mp hy
    rw [List.length_take] at hk
    have hy1 : (clientEnqueued (A ++ A'))[k]? = some y := by
      rw [clientEnqueued_append, ← (ClientView.of_fields A).2.2.1, List.getElem?_append_left (by omega),
        List.getElem?_eq_getElem (by omega)]
      rw [List.getElem_take] at hky
      rw [hky]
    have hn := hF.commands.tags
    obtain ⟨l1, g1⟩ := List.getElem?_eq_some_iff.mp hget
    obtain ⟨l2, g2⟩ := List.getElem?_eq_some_iff.mp hy1
    have hk' : k < (ClientView.of A).ended.length := by omega
    have := (List.pairwise_iff_getElem.mp hn) k (ClientView.of A).ended.length (by simpa using l2) (by simpa using l1) hk'
    simp only [List.getElem_map, g1, g2] at this
    exact this hyt
  · rw [hc] at hy
    cases hy
    have hrt := hF.commands.roundTrip x (List.mem_of_getElem? hget)
    rcases hw with ⟨hf, -⟩ | ⟨h', cmd, q', hr, hs, ⟨-, hd, pre, d, post, e1, e2, e3⟩ | ⟨ha, -⟩ | ⟨ha, -⟩⟩
    · exact ClientView.current_sent hc hf.1
    · have hx : (h', cmd) = x := (List.cons.inj (hr.symm.trans hq)).1
      subst hx
      have hlen := hg.length_le
      rw [Server.given_eq hinv, h.taken, h.output] at hlen
      have hsaid := h.core.said
      rw [hD, List.append_nil, ClientView.said_some hc] at hsaid
      rw [← hsaid, said_append, said_saidNow, e2, e1, wire_append, wire_cons] at hlen
      have := List.length_pos_iff.mpr (CommandEncodes.after hrt e1)
      simp only [List.length_append, Fragment.data] at hlen this
      omega
    · have hx : (h', cmd) = x := (List.cons.inj (hr.symm.trans hq)).1
      subst hx
      exact Command.regular_not_authenticate hreg ha
    · have hx : (h', cmd) = x := (List.cons.inj (hr.symm.trans hq)).1
      subst hx
      exact Command.regular_not_idle hreg ha
  · rw [hc] at hy
    cases hy
    rcases hw with ⟨hf, -⟩ | ⟨h', cmd, q', hr, hs, ⟨ha, -⟩ | ⟨ha, -⟩ | ⟨-, -, -, -, hd⟩⟩
    · exact ClientView.current_sent hc hf.1
    · have hx : (h', cmd) = x := (List.cons.inj (hr.symm.trans hq)).1
      subst hx
      exact Command.regular_not_idle ha hidle
    · have hx : (h', cmd) = x := (List.cons.inj (hr.symm.trans hq)).1
      subst hx
      exact Command.authenticate_not_idle ha hidle
    · rw [hdone] at hd; cases hd

/-! ## Steps of the client -/

theorem Together.client {cops : List ClientOp} {c : Client} {sops : List ServerOp} {s : Server} {i : CItem}
    (h : Together L os gr A S D fl) (hL : L.Lawful) (hO : ServerOptions.Built L os)
    (hF : FairClient L os (A ++ i :: A'))
    (hct : (Client.new gc oc).trace L cops = .ok (c, A ++ i :: A'))
    (hst : (Server.new gs os gr).trace L sops = .ok (s, S ++ S')) (hP : OrderlyServer (S ++ S'))
    (hg : serverGiven S <+: clientOutput A) (hreads : ∀ e, i ≠ .failed e)
    (hnext : ∀ r, i.decoded L = [r] → ∃ m, (serverMessages gr S)[(clientDecoded L A).length]? = some m ∧ m.content = r) :
    ∃ D' fl', Together L os gr (A ++ [i]) S D' fl' := by
  have hn := Client.now hL hct
  have hguard := Client.trace_guard hL hct
  obtain ⟨s1, hinv⟩ := Server.prefix_inv hst
  have hsnoc := ClientView.of_snoc A i
  have hrt : ∀ x, (ClientView.of A).current = some x → x.2.RoundTrip L os := by
    intro x hx
    obtain ⟨q, hq⟩ := ClientView.remaining_of_current hx
    exact hF.commands.roundTrip x (List.mem_of_getElem? (ClientView.of_remaining_get (A' := i :: A') hq))
  -- the output after a step without output
  have out : i.outputs = [] → clientOutput (A ++ [i]) =
      said L (ClientView.of A).saidBefore ++ (ClientView.of A).sent := by
    intro hi
    rw [clientOutput_append, ← h.output]
    simp [clientOutput, hi]
  have same : ∀ v', ClientView.of (A ++ [i]) = v' → SameView L (ClientView.of A) v' → v'.sent = (ClientView.of A).sent →
      i.outputs = [] → i.decoded L = [] → i.answer? = none → i.Expected →
      ∃ D' fl', Together L os gr (A ++ [i]) S D' fl' := by
    intro v' hv hs hsent h1 h2 h3 h4
    refine ⟨D, fl, h.still h2 h3 h4 ?_ ?_⟩
    · rw [hv]; exact h.core.congr hs
    · rw [out h1, hv, hs.before, hsent]
  -- a message that does not concern the dialogue
  have plain : ∀ v' r, ClientView.of (A ++ [i]) = v' → SameView L (ClientView.of A) v' → v'.sent = (ClientView.of A).sent →
      i.outputs = [] → i.decoded L = [r] →
      ((serverLog gr S).drop ((clientDecoded L A).length + 1)).filterMap Prod.snd = fl.toList →
      i.answer? = none → i.Expected → ∃ D' fl', Together L os gr (A ++ [i]) S D' fl' := by
    intro v' r hv hs hsent h1 h2 hrest h3 h4
    refine ⟨D, fl, h.read h2 hrest (by rw [h3]; rfl) h4 ?_ ?_⟩
    · rw [hv]; exact h.core.congr hs
    · rw [out h1, hv, hs.before, hsent]
  -- the end of a command
  have ends : ∀ x v' e, (ClientView.of A).current = some x → ClientView.of (A ++ [i]) = v' →
      SameView L ((ClientView.of A).terminate e) v' → v'.sent = [] → i.outputs = [] →
      saidEnded (x, ⟨e, (ClientView.of A).sent, (ClientView.of A).datas⟩) = (ClientView.of A).saidNow x →
      (ClientView.of A).sent = said L ((ClientView.of A).saidNow x) →
      clientOutput (A ++ [i]) = said L (ClientView.of (A ++ [i])).saidBefore ++ (ClientView.of (A ++ [i])).sent := by
    intro x v' e hc hv hs hsent h1 h2 h3
    obtain ⟨q, hq⟩ := ClientView.remaining_of_current hc
    rw [out h1, hv, hs.before, hsent, (ClientView.terminate_before (e := e) hq).1, h2, said_append, List.append_nil, ← h3]
  cases i with
  | failed e => exact absurd rfl (hreads e)
  | starved => exact same _ hsnoc (.rfl' _) rfl rfl rfl rfl trivial
  | input b => exact same _ hsnoc (.give _ _) rfl rfl rfl rfl trivial
  | enqueue hd cmd =>
    refine same _ hsnoc (.enqueue hn ?_ _) rfl rfl rfl rfl trivial
    obtain ⟨c1, hcinv⟩ := Client.trace_prefix_inv hL hct
    exact hcinv.1.1
  | setAuth a r =>
    cases r with
    | error _ => exact same _ hsnoc (.rfl' _) rfl rfl rfl rfl trivial
    | ok hd =>
      have hr : Except.ok hd = (ClientView.of A).authReply a := hguard
      unfold ClientView.authReply at hr
      split at hr
      · rename_i h' cmd hc
        split at hr
        · rename_i hcond
          obtain ⟨hfl, hcore⟩ := h.core.setAuth hn hc hcond.1 hcond.2 a
          subst hfl
          refine ⟨_, none, h.still (D' := [.authenticateDataReceived a]) rfl rfl trivial ?_ ?_⟩
          · rw [hsnoc]; exact hcore
          · rw [out rfl, hsnoc]; rfl
        · cases hr
      · cases hr
  | setDone r =>
    cases r with
    | none => exact same _ hsnoc (.rfl' _) rfl rfl rfl rfl trivial
    | some hd =>
      have hr : some hd = (ClientView.of A).doneReply := hguard
      unfold ClientView.doneReply at hr
      split at hr
      · rename_i h' cmd hc
        split at hr
        · rename_i hcond
          obtain ⟨hfl, hcore⟩ := h.core.setDone hc hcond.1 hcond.2.1 hcond.2.2
          subst hfl
          refine ⟨_, none, h.still (D' := [.idleDoneReceived]) rfl rfl trivial ?_ ?_⟩
          · rw [hsnoc]; exact hcore
          · rw [out rfl, hsnoc]; rfl
        · cases hr
      · cases hr
  | output b =>
    obtain ⟨-, hog⟩ := hguard
    have hout : clientOutput (A ++ [.output b]) = said L (ClientView.of (A ++ [.output b])).saidBefore ++
        (ClientView.of (A ++ [.output b])).sent := by
      rw [clientOutput_append, h.output, hsnoc, List.append_assoc]
      simp [clientOutput, CItem.outputs, ClientView.observe, ClientView.saidBefore]
    by_cases hs : (ClientView.of A).sent = []
    · have hf : (ClientView.of A).Fresh := hn.of_none (by simp [ClientView.current, hs])
      obtain ⟨hb, hd, cmd, q, hr, -⟩ := hog
      refine ⟨D ++ [cmd.event], fl, h.still rfl rfl trivial ?_ hout⟩
      rw [hsnoc]
      exact h.core.begin hf hb hr
    · refine ⟨D, fl, h.still rfl rfl trivial ?_ hout⟩
      rw [hsnoc]
      exact h.core.congr (.more hs hog)
  | sent e =>
    obtain ⟨-, hd, cmd, q, hr, hsg⟩ := hguard
    have hcur : (ClientView.of A).sent ≠ [] → (ClientView.of A).current = some (hd, cmd) :=
      fun hs => ClientView.current_of_remaining hr hs
    rcases hsg with ⟨rfl, g1, g2, g3, g4⟩ | ⟨rfl, -⟩ | ⟨rfl, -⟩ | ⟨rfl, g1, g2, g3, g4, g5⟩
    · have hs : (ClientView.of A).sent ≠ [] := by
        rw [g3]; exact wire_command_ne hL cmd
      have hc := hcur hs
      obtain ⟨hfl, hcore⟩ := h.core.commandSent hn hc g1 g4
      subst hfl
      have hdone := (hn.of_regular hc g1).2.2.2
      refine ⟨D, none, h.still rfl rfl trivial (by rw [hsnoc]; exact hcore)
        (ends _ _ (.commandSent hd cmd) hc hsnoc (.rfl' _) rfl rfl ?_ ?_)⟩
      · simp [saidEnded, ClientView.saidNow, hdone]
      · rw [said_saidNow, g3, g2, hdone]; simp [wireDatas]
    · exact same _ hsnoc (.start _) rfl rfl rfl rfl trivial
    · exact same _ hsnoc (.start _) rfl rfl rfl rfl trivial
    · have hs : (ClientView.of A).sent ≠ [] := by
        rw [g5]
        intro h0
        exact wire_command_ne hL cmd (List.append_eq_nil_iff.mp h0).1
      have hc := hcur hs
      obtain ⟨hfl, hcore⟩ := h.core.idleDoneSent hn hc g1 g4
      subst hfl
      refine ⟨D, none, h.still rfl rfl trivial (by rw [hsnoc]; exact hcore)
        (ends _ _ (.idleDoneSent hd) hc hsnoc (.rfl' _) rfl rfl ?_ ?_)⟩
      · simp [saidEnded, ClientView.saidNow, g4]
      · rw [said_saidNow, g5, g2, g4]; simp [wireDatas]
  | released w =>
    obtain ⟨-, hw, -, q, hroute, hmsg⟩ := hguard
    have hdec : (CItem.released w).decoded L = [.response (.continuationRequest q)] := by
      obtain ⟨_, _, -, -, -, -, hd⟩ := hmsg
      have hd : L.decodeResponse _ = _ := hd
      simp only [CItem.decoded, hd]
    obtain ⟨m, hm, hcont⟩ := hnext _ hdec
    obtain ⟨o, hmem, ⟨rfl, hrest⟩ | ⟨f, rfl, rfl, hrest⟩⟩ := h.next hm
    · rcases serverLog_plain hmem with rfl | ⟨S1, hd, r, S2, hS, rfl⟩
      · cases hcont
      · cases hcont
        exact (hP.prefix S1 _ S2 hS).elim
    · cases f with
      | literal =>
        refine ⟨D, none, h.read hdec hrest rfl trivial ?_ ?_⟩
        · rw [hsnoc]; exact h.core.readLiteral.congr (.consume _ _)
        · rw [out rfl, hsnoc]; rfl
      | answer a =>
        have hc := serverLog_answer hmem
        rw [hcont] at hc
        have hj := h.core.joint
        cases hj with
        | authContinue x q' h1 h2 h3 h4 h5 h6 =>
          obtain ⟨m, ir, hb⟩ := Command.body_of_authenticate h2
          simp [ClientView.route, h1, hb, h6] at hroute
        | authFinish x b => cases hc
        | idleAccept x q' h1 h2 h3 h4 h5 =>
          simp [ClientView.route, h1, Command.body_of_idle h2, h5] at hroute
        | idleReject x b => cases hc
  | received w e =>
    obtain ⟨hw, -, ⟨-, g, rfl, -⟩ | ⟨hgr, r, hr, -⟩⟩ := hguard
    · have hdec : (CItem.received w (.greetingReceived g)).decoded L = [.greeting g] := rfl
      obtain ⟨m, hm, hcont⟩ := hnext _ hdec
      obtain ⟨o, hmem, ⟨rfl, hrest⟩ | ⟨f, rfl, rfl, hrest⟩⟩ := h.next hm
      · exact plain _ _ hsnoc (.greet _ _) rfl rfl hdec hrest rfl trivial
      · cases f with
        | literal => rw [serverLog_literal hO hst h.accepted hmem] at hcont; cases hcont
        | answer a => rw [serverLog_answer hmem] at hcont; cases hcont
    · have hw := hw hgr
      have hdec := response_decoded (L := L) (w := w) (route_response hr)
      obtain ⟨m, hm, hcont⟩ := hnext _ hdec
      obtain ⟨o, hmem, ⟨rfl, hrest⟩ | ⟨f, rfl, rfl, hrest⟩⟩ := h.next hm
      · rcases serverLog_plain hmem with rfl | ⟨S1, hd, r', S2, hS, rfl⟩
        · cases hcont
        · cases hcont
          have hallow := hP.prefix S1 _ S2 hS
          cases r with
          | data d =>
            cases hr
            exact plain _ _ hsnoc (.consume _ _) rfl rfl hdec hrest rfl trivial
          | continuationRequest q => exact hallow.elim
          | status st =>
            have he : e = .statusReceived st := by
              unfold ClientView.route at hr
              split at hr
              · rename_i heq; cases heq
              · rename_i st' heq
                cases heq
                split at hr
                · rename_i hd cmd tag body hc
                  have ht : tag ∈ (serverDialogue S).completed := by
                    rw [hS]; exact serverDialogue_mono hallow
                  have := h.not_current hF hw hinv hg ht hc
                  rw [if_neg this] at hr
                  cases hr; rfl
                · cases hr; rfl
              · rename_i heq; cases heq
            subst he
            exact plain _ _ hsnoc (.consume _ _) rfl rfl hdec hrest rfl trivial
      · cases f with
        | literal =>
          rw [serverLog_literal hO hst h.accepted hmem] at hcont
          cases hcont
          have hj := h.core.joint
          generalize hf : some Underway.literal = f at hj
          cases hj with
          | literal x h1 h2 =>
            rw [route_continuation_regular (h := x.1) h1 h2] at hr
            cases hr
          | _ => cases hf
        | answer a =>
          have hc := serverLog_answer hmem
          rw [hcont] at hc
          have hj := h.core.joint
          cases hj with
          | authContinue x q' h1 h2 h3 h4 h5 h6 =>
            cases hc
            obtain ⟨m, ir, hb⟩ := Command.body_of_authenticate h2
            simp [ClientView.route, Answer.response, h1, hb, h6] at hr
            subst hr
            refine ⟨[], none, h.read hdec hrest rfl trivial ?_ ?_⟩
            · rw [hsnoc]; exact h.core.readContinue.congr (.consume _ _)
            · rw [out rfl, hsnoc]; rfl
          | authFinish x b h1 h2 h3 h4 h5 =>
            cases hc
            obtain ⟨m, ir, hb⟩ := Command.body_of_authenticate h2
            obtain ⟨hx, cmd⟩ := x
            have hb : cmd.body = _ := hb
            simp [ClientView.route, Answer.response, h1, hb] at hr
            subst hr
            have hdone := (hn.of_authenticate h1 h2).2.2.1
            refine ⟨[], none, h.read hdec hrest rfl trivial ?_ ?_⟩
            · rw [hsnoc]
              exact (h.core.readFinish hn h1 h2 (fun hd hh => by cases hh)).congr (.consume _ _)
            · refine ends _ _ _ h1 hsnoc (.consume _ _) rfl rfl ?_
                (hw.sent hn h1 (by simp [Command.isRegular, hb]))
              simp [saidEnded, ClientView.saidNow, hdone]
          | idleAccept x q' h1 h2 h3 h4 h5 =>
            cases hc
            have hb := Command.body_of_idle h2
            simp [ClientView.route, Answer.response, h1, hb, h5] at hr
            subst hr
            refine ⟨[], none, h.read hdec hrest rfl trivial ?_ ?_⟩
            · rw [hsnoc]; exact (h.core.readAccept hn).congr (.consume _ _)
            · rw [out rfl, hsnoc]; rfl
          | idleReject x b h1 h2 h3 h4 h5 =>
            cases hc
            have hb := Command.body_of_idle h2
            obtain ⟨hx, cmd⟩ := x
            have hb : cmd.body = _ := hb
            simp [ClientView.route, Answer.response, h1, hb] at hr
            subst hr
            have hdone : (ClientView.of A).doneSet = false := by
              cases hd : (ClientView.of A).doneSet with
              | false => rfl
              | true => rw [(hn.of_idle h1 h2).2.2.2 hd] at h5; cases h5
            refine ⟨[], none, h.read hdec hrest rfl trivial ?_ ?_⟩
            · rw [hsnoc]
              exact (h.core.readReject hn h1 h2 (fun hd hh => by cases hh)).congr (.consume _ _)
            · refine ends _ _ _ h1 hsnoc (.consume _ _) rfl rfl ?_
                (hw.sent hn h1 (by simp [Command.isRegular, hb]))
              simp [saidEnded, ClientView.saidNow, hdone]

/-! ## Runs -/

theorem Together.start (L : Lib) (os : ServerOptions) (gr : Greeting) : Together L os gr [] [] [] none where
  core :=
    { said := rfl
      joint := .fresh rfl (.inl ⟨rfl, rfl, fun e he => absurd he (List.not_mem_nil (a := e))⟩)
      count := rfl
      completed := fun t ht => absurd ht (List.not_mem_nil (a := t)) }
  output := rfl
  taken := rfl
  accepted := fun _ _ hm => absurd hm List.not_mem_nil
  flight := rfl
  answers := rfl
  expected := fun i hi => absurd hi (List.not_mem_nil (a := i))

/-- Client and server fit together at every moment. -/
theorem Net.Linked.together (hL : L.Lawful) (h : Net.Linked L gc oc gs os gr n T) (hO : ServerOptions.Built L os)
    (hrt : ∀ m ∈ serverMessages gr (serverItems T), m.RoundTrip L oc) (hmax : 0 < os.maxCommandSize)
    (hF : FairClient L os (clientItems T)) (hP : OrderlyServer (serverItems T)) {P Q : List NItem} (hT : T = P ++ Q) :
    ∃ D fl, Together L os gr (clientItems P) (serverItems P) D fl := by
  induction P using snocInduction generalizing Q with
  | nil => exact ⟨_, _, Together.start L os gr⟩
  | snoc P it ih =>
    have hT' : T = P ++ it :: Q := by rw [hT]; simp
    obtain ⟨D, fl, IH⟩ := ih hT'
    obtain ⟨cops, hct⟩ := h.client
    obtain ⟨sops, hst⟩ := h.server
    have hg := (h.causal P _ hT').2
    cases it with
    | server j =>
      have hC : clientItems (P ++ [.server j]) = clientItems P := by
        rw [clientItems_append]; exact List.append_nil _
      have hS : serverItems (P ++ [.server j]) = serverItems P ++ [j] := by rw [serverItems_append]; rfl
      have hCT : clientItems T = clientItems P ++ clientItems Q := by rw [hT', clientItems_append]; rfl
      have hST : serverItems T = serverItems P ++ j :: serverItems Q := by rw [hT', serverItems_append]; rfl
      have hle := h.decoded_le hL hrt hT'
      rw [hCT] at hct hF
      rw [hST] at hst hP
      rw [hC, hS]
      exact IH.server (Client.now hL hct) hL hO hmax hF hst hP hle hg
    | client i =>
      have hC : clientItems (P ++ [.client i]) = clientItems P ++ [i] := by rw [clientItems_append]; rfl
      have hS : serverItems (P ++ [.client i]) = serverItems P := by
        rw [serverItems_append]; exact List.append_nil _
      have hCT : clientItems T = clientItems P ++ i :: clientItems Q := by rw [hT', clientItems_append]; rfl
      have hST : serverItems T = serverItems P ++ serverItems Q := by rw [hT', serverItems_append]; rfl
      have hread : ∀ e, i ≠ .failed e := by
        rintro e rfl
        obtain ⟨k, -, -, -, hf, -⟩ := h.reads hL hrt (T1 := clientItems T) (T2 := []) (List.append_nil _).symm
        exact hf e (by rw [hCT]; simp)
      have hnext : ∀ r, i.decoded L = [r] → ∃ m,
          (serverMessages gr (serverItems P))[(clientDecoded L (clientItems P)).length]? = some m ∧ m.content = r := by
        intro r hr
        obtain ⟨m, h1, -, h2, -⟩ := h.next_message hL hrt hT' hr
        exact ⟨m, h1, h2⟩
      rw [hCT] at hct hF
      rw [hST] at hst hP
      rw [hC, hS]
      exact IH.client hL hO hF hct hst hP hg hread hnext

end ImapFlow
