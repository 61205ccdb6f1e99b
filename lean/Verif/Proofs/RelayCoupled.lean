import Verif.Proofs.RelayReported

/-!
# The two connections of a proxy are coupled

`V` is the trace of the server of the proxy (towards the client), `U` the trace of its client (towards the server).
-/

namespace ImapFlow

variable {L : Lib}

/-- The call of the owner that an item records. -/
def CItem.op? : CItem → Option ClientOp
  | .enqueue _ c => some (.enqueueCommand c)
  | .setAuth d _ => some (.setAuthenticateData d)
  | .setDone _ => some .setIdleDone
  | _ => none

/-- The call of the owner that an item records. -/
def SItem.op? : SItem → Option ServerOp
  | .enqueue _ r => some r.enqueue
  | .authContinue q _ => some (.authenticateContinue q)
  | .authFinish st _ => some (.authenticateFinish st)
  | .idleAccept q _ => some (.idleAccept q)
  | .idleReject st _ => some (.idleReject st)
  | _ => none

/-- The tag of the AUTHENTICATE or IDLE that the server of the proxy waits for. -/
def expectedTag (p : ServerPhase) (q : List (RawHandle × Command)) : Option Tag :=
  match p with
  | .command => none
  | _ => q.getLast?.map fun x => x.2.tag

/-- Both sides of the proxy are coupled. -/
structure Coupled (V : List SItem) (U : List CItem) : Prop where
  inStep : InStep (ClientView.of U) (serverPhase V)
  running : (serverDialogue V).running = expectedTag (serverPhase V) (ClientView.of U).remaining
  asked : serverPhase V = .authenticate →
    (serverDialogue V).asked + (ClientView.of U).datas.length = (ClientView.of U).asked
  heard : serverHeard V = (ClientView.of U).fed
  datas : ∀ a ∈ U.filterMap CItem.data?, .authenticateDataReceived a ∈ serverHeard V
  answers : serverAnswers V = clientAnswers U

theorem Coupled.start : Coupled [] [] where
  inStep := trivial
  running := rfl
  asked h := by cases h
  heard := rfl
  datas a ha := absurd ha (List.not_mem_nil (a := a))
  answers := rfl

/-! ## Silent steps -/

theorem serverDialogue_silent {V W : List SItem} (h : ∀ i ∈ W, i.Silent) : serverDialogue (V ++ W) = serverDialogue V := by
  induction W using snocInduction with
  | nil => rw [List.append_nil]
  | snoc W i ih =>
    rw [← List.append_assoc, serverDialogue_snoc, ih fun j hj => h j (by simp [hj])]
    have := h i (by simp)
    cases i <;> first | exact this.elim | rfl

theorem serverHeard_silent {V W : List SItem} (h : ∀ i ∈ W, i.Silent) : serverHeard (V ++ W) = serverHeard V := by
  induction W using snocInduction with
  | nil => rw [List.append_nil]
  | snoc W i ih =>
    rw [← List.append_assoc, serverHeard_snoc, ih fun j hj => h j (by simp [hj])]
    have := h i (by simp)
    cases i <;> first | exact this.elim | exact List.append_nil _

theorem serverAnswers_silent {V W : List SItem} (h : ∀ i ∈ W, i.Silent) : serverAnswers (V ++ W) = serverAnswers V := by
  induction W using snocInduction with
  | nil => rw [List.append_nil]
  | snoc W i ih =>
    rw [← List.append_assoc, serverAnswers_snoc, ih fun j hj => h j (by simp [hj])]
    have := h i (by simp)
    cases i <;> first | exact this.elim | exact List.append_nil _

theorem clientAnswers_silent {U W : List CItem} (h : ∀ i ∈ W, i.Silent) : clientAnswers (U ++ W) = clientAnswers U := by
  induction W using snocInduction with
  | nil => rw [List.append_nil]
  | snoc W i ih =>
    rw [← List.append_assoc, clientAnswers_snoc, ih fun j hj => h j (by simp [hj])]
    have := h i (by simp)
    cases i <;> first | exact this.elim | exact List.append_nil _

theorem clientDatas_silent {U W : List CItem} (h : ∀ i ∈ W, i.Silent) :
    (U ++ W).filterMap CItem.data? = U.filterMap CItem.data? := by
  have hz : W.filterMap CItem.data? = [] := by
    rw [List.filterMap_eq_nil_iff]
    intro i hi
    have := h i hi
    cases i <;> first | exact this.elim | rfl
  rw [List.filterMap_append, hz, List.append_nil]

variable {V : List SItem} {U : List CItem}

theorem Coupled.quietServer (h : Coupled V U) {W : List SItem} (hW : ∀ i ∈ W, i.Silent) : Coupled (V ++ W) U := by
  have h1 := serverPhase_silent (V := V) hW
  have h2 := serverDialogue_silent (V := V) hW
  have h3 := serverHeard_silent (V := V) hW
  have h4 := serverAnswers_silent (V := V) hW
  refine ⟨?_, ?_, ?_, ?_, ?_, ?_⟩
  · rw [h1]; exact h.inStep
  · rw [h1, h2]; exact h.running
  · rw [h1, h2]; exact h.asked
  · rw [h3]; exact h.heard
  · rw [h3]; exact h.datas
  · rw [h4]; exact h.answers

theorem Coupled.quietClient (h : Coupled V U) {W : List CItem} (hW : ∀ i ∈ W, i.Silent) : Coupled V (U ++ W) := by
  have hv := ClientView.of_silent (U := U) hW
  refine ⟨h.inStep.same hv, ?_, ?_, ?_, ?_, ?_⟩
  · rw [hv.remaining]; exact h.running
  · rw [hv.datas, hv.asked]; exact h.asked
  · rw [hv.fed]; exact h.heard
  · rw [clientDatas_silent hW]; exact h.datas
  · rw [clientAnswers_silent hW]; exact h.answers

/-! ## Something is heard from the client -/

theorem Now.not_done {v : ClientView} (hn : Now L v) (hr : ∀ x q, v.remaining = x :: q → x.2.isIdle = false) :
    v.doneSet = false := by
  cases hn with
  | fresh h => exact h.2.2.2.2.2.2
  | regular _ _ _ _ _ h1 h2 h3 h4 h5 h6 h7 => exact h7
  | authenticate _ _ _ _ h1 h2 h3 h4 h5 h6 => exact h6
  | idle _ _ _ h1 h2 h3 => have := hr _ _ h1; rw [h3] at this; cases this

/-- What the observer of the two sides knows. -/
def watchOf (v : ClientView) (ph : ServerPhase) : ProxyWatch :=
  ⟨decide (v.asked = v.datas.length + 1), decide (ph = .idle)⟩

theorem Coupled.joint (h : Coupled V U) : Joint (watchOf (ClientView.of U) (serverPhase V)) (serverPhase V) (ClientView.of U) :=
  ⟨h.inStep, by simp [watchOf], by simp [watchOf]⟩

theorem snoc_datas (U : List CItem) (j : CItem) : (U ++ [j]).filterMap CItem.data? = U.filterMap CItem.data? ++ j.data?.toList := by
  rw [List.filterMap_append]
  cases h : j.data? <;> simp [h]

/-- The data that the client sends was asked for. -/
def DataAsked (U : List CItem) (e : ServerEvent) : Prop :=
  ∀ a, e = .authenticateDataReceived a → (ClientView.of U).asked = (ClientView.of U).datas.length + 1

/-- The call succeeds. -/
def CItem.Succeeds : CItem → Prop
  | .setAuth _ (.error _) => False
  | .setDone none => False
  | _ => True

/-- An event of the connection to the client is passed on. -/
theorem Coupled.hear (h : Coupled V U) {s : ClientSendState} (hS : SendOk L (ClientView.of U) s) {o : ServerOptions}
    {gr : Greeting} {i : SItem} {e : ServerEvent} (hg : Server.Guard L o (ServerView.of gr V) i) (hi : i.event? = some e)
    (ha : DataAsked U e) {J : List CItem} (hJ : J.map CItem.op? = e.passed.toList.map some) {relaxed : Bool}
    (hgJ : ∀ j, J = [j] → Client.Guard L relaxed (ClientView.of U) j) :
    Coupled (V ++ [i]) (U ++ J) ∧ ∀ j, J = [j] → j.Succeeds := by
  have hn := hS.now
  have hjt := h.joint
  have hphase := ServerView.of_phase gr V
  rcases server_event_cases hg hi with ⟨-, hp, he⟩ | ⟨hp, hp', c, rfl⟩ | ⟨hp, hp', d, rfl⟩ | ⟨hp, hp', rfl⟩
  · have hpass : e.passed = none := by rcases he with ⟨g, rfl⟩ | ⟨hd, r, rfl⟩ <;> rfl
    rw [hpass] at hJ
    have hJ : J = [] := by simpa using hJ
    subst hJ
    have hi' : i = .sent e := by
      cases i with
      | sent e' => cases hi; rfl
      | received w e' =>
        cases hi
        obtain ⟨-, -, -, ht, -⟩ := hg
        exfalso
        cases hq : (ServerView.of gr V).phase with
        | command =>
          rw [hq] at ht
          obtain ⟨⟨t, b⟩, -, rfl⟩ := ht
          rcases he with ⟨g, he⟩ | ⟨hd, r, he⟩ <;> cases b <;> cases he
        | authenticate =>
          rw [hq] at ht
          obtain ⟨d, -, rfl⟩ := ht
          rcases he with ⟨g, he⟩ | ⟨hd, r, he⟩ <;> cases he
        | idlePending => rw [hq] at ht; exact ht
        | idle =>
          rw [hq] at ht
          obtain ⟨-, rfl⟩ := ht
          rcases he with ⟨g, he⟩ | ⟨hd, r, he⟩ <;> cases he
      | _ => cases hi
    subst hi'
    rw [List.append_nil]
    refine ⟨⟨?_, ?_, ?_, ?_, ?_, ?_⟩, fun j hj => by cases hj⟩
    · rw [serverPhase_snoc]; exact h.inStep
    · rw [serverPhase_snoc, serverDialogue_snoc]; exact h.running
    · rw [serverPhase_snoc, serverDialogue_snoc]; exact h.asked
    · rw [serverHeard_snoc]; exact (List.append_nil _).trans h.heard
    · rw [serverHeard_snoc]; simpa [SItem.heard?] using h.datas
    · rw [serverAnswers_snoc]; exact (List.append_nil _).trans h.answers
  · rw [hphase] at hp hp'
    obtain ⟨w, rfl⟩ : ∃ w, i = .received w c.event := by
      cases i with
      | sent e' =>
        cases hi
        obtain ⟨-, m, -, hm⟩ := hg
        obtain ⟨t, b⟩ := c
        rcases m with g | ⟨_ | hd, r⟩ <;> cases b <;> cases hm
      | received w e' => cases hi; exact ⟨w, rfl⟩
      | _ => cases hi
    rw [Command.event_passed] at hJ
    obtain ⟨j, rfl⟩ : ∃ j, J = [j] := by
      have := congrArg List.length hJ
      simp only [List.length_map, Option.toList_some, List.length_singleton] at this
      exact List.length_eq_one_iff.mp this
    have hj : j.op? = some (.enqueueCommand c) := by simpa using hJ
    obtain ⟨hd, rfl⟩ : ∃ hd, j = .enqueue hd c := by
      cases j <;> cases hj
      exact ⟨_, rfl⟩
    rw [hp] at hjt
    have hjt' := hjt.command hS hd c
    have hrem : ((ClientView.of U).observe (.enqueue hd c)).remaining = (ClientView.of U).remaining ++ [(hd, c)] :=
      ClientView.remaining_enqueue hS.1
    have hset : Settled (ClientView.of U).doneSet (ClientView.of U).remaining := hjt.inStep
    refine ⟨⟨?_, ?_, ?_, ?_, ?_, ?_⟩, fun j hj => by cases hj; trivial⟩
    · rw [serverPhase_snoc, hp', ClientView.of_snoc]; exact hjt'.inStep
    · rw [serverPhase_snoc, hp', serverDialogue_snoc, ClientView.of_snoc, hrem]
      have hrun := h.running
      rw [hp] at hrun
      obtain ⟨t, b⟩ := c
      cases b with
      | other x => exact hrun
      | authenticate m ir =>
        show some t = (List.getLast? _).map _
        rw [List.getLast?_append]; rfl
      | idle =>
        show some t = (List.getLast? _).map _
        rw [List.getLast?_append]; rfl
    · rw [serverPhase_snoc, hp', serverDialogue_snoc, ClientView.of_snoc]
      intro hph
      obtain ⟨t, b⟩ := c
      cases b with
      | other x => cases hph
      | authenticate m ir =>
        obtain ⟨h1, h2⟩ := hn.unasked fun x q hx => by rw [hx] at hset; exact hset.head.1
        show 0 + (ClientView.of U).datas.length = (ClientView.of U).asked
        rw [h1, h2]; rfl
      | idle => cases hph
    · rw [serverHeard_snoc, ClientView.of_snoc, ClientView.fed_enqueue hn hS.1, h.heard]; rfl
    · rw [serverHeard_snoc, snoc_datas]
      intro a ha
      exact List.mem_append_left _ (h.datas a (by simpa [CItem.data?] using ha))
    · rw [serverAnswers_snoc, clientAnswers_snoc]
      exact (List.append_nil _).trans (h.answers.trans (List.append_nil _).symm)
  · rw [hphase] at hp hp'
    obtain ⟨w, rfl⟩ : ∃ w, i = .received w (.authenticateDataReceived d) := by
      cases i with
      | sent e' =>
        cases hi
        obtain ⟨-, m, -, hm⟩ := hg
        rcases m with g | ⟨_ | hd, r⟩ <;> cases hm
      | received w e' => cases hi; exact ⟨w, rfl⟩
      | _ => cases hi
    obtain ⟨j, rfl⟩ : ∃ j, J = [j] := by
      have := congrArg List.length hJ
      simp only [ServerEvent.passed, List.length_map, Option.toList_some, List.length_singleton] at this
      exact List.length_eq_one_iff.mp this
    have hj : j.op? = some (.setAuthenticateData d) := by simpa [ServerEvent.passed] using hJ
    obtain ⟨r, rfl⟩ : ∃ r, j = .setAuth d r := by
      cases j <;> cases hj
      exact ⟨_, rfl⟩
    have hr : r = (ClientView.of U).authReply d := hgJ _ rfl
    have hask := ha d rfl
    rw [hp] at hjt
    rcases hjt.data hS d with ⟨hw, -⟩ | ⟨hd, hrep, hjt'⟩
    · simp [watchOf, hask] at hw
    rw [hrep] at hr
    subst hr
    obtain ⟨hs, x, q, hrem, hx⟩ := hS.asked hask
    have hq := (hjt.inStep.authenticate hrem hx).2
    subst hq
    have hdone : (ClientView.of U).doneSet = false := hn.not_done fun y q hy => by
      rw [hrem] at hy; cases hy; exact (isAuthenticate_not hx).2
    have hasked := h.asked hp
    refine ⟨⟨?_, ?_, ?_, ?_, ?_, ?_⟩, fun j hj => by cases hj; trivial⟩
    · rw [serverPhase_snoc, hp', ClientView.of_snoc]; exact hjt'.inStep
    · rw [serverPhase_snoc, hp', serverDialogue_snoc, ClientView.of_snoc]
      have hrun := h.running
      rw [hp] at hrun
      exact hrun
    · intro _
      rw [serverDialogue_snoc, ClientView.of_snoc]
      show (serverDialogue V).asked - 1 + ((ClientView.of U).datas ++ [d]).length = (ClientView.of U).asked
      rw [List.length_append, List.length_singleton]
      omega
    · rw [serverHeard_snoc, ClientView.of_snoc, ClientView.fed_data hrem hdone, h.heard]; rfl
    · rw [serverHeard_snoc, snoc_datas]
      intro a ha
      rcases List.mem_append.mp ha with ha | ha
      · exact List.mem_append_left _ (h.datas a ha)
      · refine List.mem_append_right _ ?_
        have : a = d := by simpa [CItem.data?] using ha
        rw [this]; exact List.mem_singleton.mpr rfl
    · rw [serverAnswers_snoc, clientAnswers_snoc]
      exact (List.append_nil _).trans (h.answers.trans (List.append_nil _).symm)
  · rw [hphase] at hp hp'
    obtain ⟨w, rfl⟩ : ∃ w, i = .received w .idleDoneReceived := by
      cases i with
      | sent e' =>
        cases hi
        obtain ⟨-, m, -, hm⟩ := hg
        rcases m with g | ⟨_ | hd, r⟩ <;> cases hm
      | received w e' => cases hi; exact ⟨w, rfl⟩
      | _ => cases hi
    obtain ⟨j, rfl⟩ : ∃ j, J = [j] := by
      have := congrArg List.length hJ
      simp only [ServerEvent.passed, List.length_map, Option.toList_some, List.length_singleton] at this
      exact List.length_eq_one_iff.mp this
    have hj : j.op? = some .setIdleDone := by simpa [ServerEvent.passed] using hJ
    obtain ⟨r, rfl⟩ : ∃ r, j = .setDone r := by
      cases j <;> cases hj
      exact ⟨_, rfl⟩
    have hr : r = (ClientView.of U).doneReply := hgJ _ rfl
    rw [hp] at hjt
    obtain ⟨hd, hrep, hjt'⟩ := hjt.done hS
    rw [hrep] at hr
    subst hr
    obtain ⟨x, hrem, hx, -, hdone⟩ := hjt.inStep
    refine ⟨⟨?_, ?_, ?_, ?_, ?_, ?_⟩, fun j hj => by cases hj; trivial⟩
    · rw [serverPhase_snoc, hp', ClientView.of_snoc]; exact hjt'.inStep
    · rw [serverPhase_snoc, hp', serverDialogue_snoc]; rfl
    · rw [serverPhase_snoc, hp']; intro h; cases h
    · rw [serverHeard_snoc, ClientView.of_snoc, ClientView.fed_done hrem hdone, h.heard]; rfl
    · rw [serverHeard_snoc, snoc_datas]
      intro a ha
      exact List.mem_append_left _ (h.datas a (by simpa [CItem.data?] using ha))
    · rw [serverAnswers_snoc, clientAnswers_snoc]
      exact (List.append_nil _).trans (h.answers.trans (List.append_nil _).symm)

/-! ## Something is reported about the server -/

/-- The server of the proxy waits for the event. -/
theorem Coupled.ready (h : Coupled V U) {s : ClientSendState} (hS : SendOk L (ClientView.of U) s) {relaxed : Bool}
    {i : CItem} {e : ClientEvent} (hg : Client.Guard L relaxed (ClientView.of U) i) (hi : i.event? = some e)
    {gr : Greeting} {S : List SItem} (hr : ∀ w, i = .received w e → Reported gr S (ClientView.of U) e) :
    e.Ready (serverPhase V) ∧ InStep ((ClientView.of U).observe i) (e.phaseAfter (serverPhase V)) := by
  rcases h.joint.event hS hg hi with ⟨hw, hd, st, rfl⟩ | ⟨h1, h2⟩
  · exfalso
    have hp : serverPhase V = .idle := by simpa [watchOf] using hw
    have hin := h.inStep
    rw [hp] at hin
    obtain ⟨x, -, -, ha, -⟩ := hin
    have hi' : ∃ w, i = .received w (.idleRejected hd st) := by
      cases i with
      | sent e' =>
        cases hi
        obtain ⟨-, _, _, _, -, hg⟩ := hg
        rcases hg with ⟨hg, -⟩ | ⟨hg, -⟩ | ⟨hg, -⟩ | ⟨hg, -⟩ <;> cases hg
      | received w e' => cases hi; exact ⟨w, rfl⟩
      | _ => cases hi
    obtain ⟨w, hi'⟩ := hi'
    cases hr w hi' with
    | idleReject x b h1 h2 h3 => rw [h3] at ha; cases ha
  · exact ⟨h1, h2.inStep⟩

theorem expectedTag_terminate {p : ServerPhase} {v : ClientView} {e : ClientEvent} {x : RawHandle × Command}
    {q : List (RawHandle × Command)} (hr : v.remaining = x :: q) (hq : p ≠ .command → q ≠ []) :
    expectedTag p (v.terminate e).remaining = expectedTag p v.remaining := by
  rw [(ClientView.remaining_terminate hr).1, hr]
  by_cases hp : p = .command
  · subst hp; rfl
  · cases q with
    | nil => exact (hq hp rfl).elim
    | cons y q => cases p <;> first | exact (hp rfl).elim | simp [expectedTag, List.getLast?_cons_cons]

/-- A regular command or an ended IDLE is not the one that the server of the proxy waits for. -/
theorem InStep.more {v : ClientView} {p : ServerPhase} {x : RawHandle × Command} {q : List (RawHandle × Command)}
    (h : InStep v p) (hr : v.remaining = x :: q)
    (hx : x.2.isRegular = true ∨ (x.2.isIdle = true ∧ v.doneSet = true)) : p ≠ .command → q ≠ [] := by
  rintro hp rfl
  cases p with
  | command => exact hp rfl
  | authenticate =>
    obtain ⟨q1, y, h1, -, h3⟩ := h
    rw [hr] at h1
    rcases snoc_cons h1.symm with ⟨rfl, -, rfl⟩ | ⟨r, -, h2⟩
    · rcases hx with hx | hx
      · rw [(isRegular_not hx).2] at h3; cases h3
      · rw [(isIdle_not hx.1).2] at h3; cases h3
    · simp at h2
  | idlePending =>
    obtain ⟨q1, y, h1, -, h3, h4⟩ := h
    rw [hr] at h1
    rcases snoc_cons h1.symm with ⟨rfl, -, rfl⟩ | ⟨r, -, h2⟩
    · rcases hx with hx | hx
      · rw [(isRegular_not hx).1] at h3; cases h3
      · rw [(h4 rfl).2] at hx; cases hx.2
    · simp at h2
  | idle =>
    obtain ⟨y, h1, h2, -, h4⟩ := h
    rw [hr] at h1
    cases h1
    rcases hx with hx | hx
    · rw [(isRegular_not hx).1] at h2; cases h2
    · rw [h4] at hx; cases hx.2

/-- An event of the sending side concerns only the client of the proxy. -/
theorem Coupled.sent (h : Coupled V U) {s : ClientSendState} (hS : SendOk L (ClientView.of U) s) {relaxed : Bool}
    {e : ClientEvent} (hg : Client.Guard L relaxed (ClientView.of U) (.sent e)) :
    e.answer = none ∧ Coupled V (U ++ [.sent e]) := by
  have hn := hS.now
  have hin := (h.ready hS hg rfl (gr := ⟨.ok, none, []⟩) (S := []) (fun w hw => by cases hw)).2
  have hans : ∀ e, clientAnswers (U ++ [.sent e]) = clientAnswers U := fun e => by
    rw [clientAnswers_snoc]; exact List.append_nil _
  have hdat : ∀ e, (U ++ [CItem.sent e]).filterMap CItem.data? = U.filterMap CItem.data? := fun e => by
    rw [snoc_datas]; exact List.append_nil _
  obtain ⟨-, hd, cmd, q, hr, hg⟩ := hg
  have same : ∀ e, (ClientView.of U).Same ((ClientView.of U).observe (.sent e)) →
      InStep ((ClientView.of U).observe (.sent e)) (serverPhase V) → Coupled V (U ++ [.sent e]) := by
    intro e hv hin
    refine ⟨?_, ?_, ?_, ?_, ?_, ?_⟩
    · rw [ClientView.of_snoc]; exact hin
    · rw [ClientView.of_snoc, hv.remaining]; exact h.running
    · rw [ClientView.of_snoc, hv.datas, hv.asked]; exact h.asked
    · rw [ClientView.of_snoc, hv.fed]; exact h.heard
    · rw [hdat]; exact h.datas
    · rw [hans]; exact h.answers
  have ends : ∀ e, (ClientView.of U).observe (.sent e) = (ClientView.of U).terminate e →
      InStep ((ClientView.of U).observe (.sent e)) (serverPhase V) →
      cmd.isRegular = true ∨ (cmd.isIdle = true ∧ (ClientView.of U).doneSet = true) →
      saidEnded ((hd, cmd), ⟨e, (ClientView.of U).sent, (ClientView.of U).datas⟩) = (ClientView.of U).saidNow (hd, cmd) →
      Coupled V (U ++ [.sent e]) := by
    intro e ht hin hx hs
    have hu : (ClientView.of U).asked = 0 ∧ (ClientView.of U).datas = [] := hn.unasked fun y q' hy => by
      rw [hr] at hy; cases hy
      rcases hx with hx | hx
      · exact (isRegular_not hx).2
      · exact (isIdle_not hx.1).2
    refine ⟨?_, ?_, ?_, ?_, ?_, ?_⟩
    · rw [ClientView.of_snoc]; exact hin
    · rw [ClientView.of_snoc, ht, expectedTag_terminate hr (h.inStep.more hr hx)]; exact h.running
    · intro hp
      have := h.asked hp
      rw [hu.1, hu.2] at this
      rw [ClientView.of_snoc, ht]
      exact this
    · rw [ClientView.of_snoc, ht, ClientView.fed_terminate hr hs]; exact h.heard
    · rw [hdat]; exact h.datas
    · rw [hans]; exact h.answers
  rcases hg with ⟨rfl, h1, -⟩ | ⟨rfl, -⟩ | ⟨rfl, -⟩ | ⟨rfl, h1, -, -, h2, -⟩
  · refine ⟨rfl, ends _ rfl hin (.inl h1) ?_⟩
    have hdone : (ClientView.of U).doneSet = false := hn.not_done fun y q' hy => by
      rw [hr] at hy; cases hy; exact (isRegular_not h1).1
    simp [saidEnded, ClientView.saidNow, hdone]
  · exact ⟨rfl, same _ ⟨rfl, rfl, rfl, rfl, rfl, rfl⟩ hin⟩
  · exact ⟨rfl, same _ ⟨rfl, rfl, rfl, rfl, rfl, rfl⟩ hin⟩
  · refine ⟨rfl, ends _ rfl hin (.inr ⟨h1, h2⟩) ?_⟩
    simp [saidEnded, ClientView.saidNow, h2]

theorem enqueue_inj {r r' : Response} (h : r.enqueue = r'.enqueue) : r = r' := by
  cases r <;> cases r' <;> cases h <;> rfl

theorem SItem.op_enqueue {j : SItem} {r : Response} (h : j.op? = some r.enqueue) : ∃ hd, j = .enqueue hd r := by
  cases j with
  | enqueue hd r' => exact ⟨hd, by rw [enqueue_inj (Option.some.inj h)]⟩
  | authContinue q x => cases r <;> cases h
  | authFinish q x => cases r <;> cases h
  | idleAccept q x => cases r <;> cases h
  | idleReject q x => cases r <;> cases h
  | _ => cases h

/-- A response that concerns neither AUTHENTICATE nor IDLE is passed on. -/
theorem Coupled.enqueue (h : Coupled V U) (hd : RawHandle) (r : Response) : Coupled (V ++ [.enqueue hd r]) U := by
  refine ⟨?_, ?_, ?_, ?_, ?_, ?_⟩
  · rw [serverPhase_snoc]; exact h.inStep
  · rw [serverPhase_snoc, serverDialogue_snoc]; exact h.running
  · rw [serverPhase_snoc, serverDialogue_snoc]; exact h.asked
  · rw [serverHeard_snoc]; exact (List.append_nil _).trans h.heard
  · rw [serverHeard_snoc]; simpa [SItem.heard?] using h.datas
  · rw [serverAnswers_snoc]; exact (List.append_nil _).trans h.answers

/-- The answers of the proxy to its client: allowed, and taken from the server. -/
structure ToldOk (gr : Greeting) (S V : List SItem) (J : List SItem) : Prop where
  allowed : ∀ j, J = [j] → (serverDialogue V).Allows j
  short : J = [] ∨ ∃ j, J = [j]
  user : ∀ hd r, .response (some hd) r ∈ J.flatMap SItem.enqueues → ∃ r0, UserSent gr S r0 ∧ (r = r0 ∨ r = r0.restrict)

theorem ToldOk.nil {gr : Greeting} {S V : List SItem} : ToldOk gr S V [] :=
  ⟨fun j hj => (by cases hj), .inl rfl, fun _ _ h => (by cases h)⟩

theorem ToldOk.single {gr : Greeting} {S V : List SItem} {j : SItem} {hd : RawHandle} {r r0 : Response}
    (h : (serverDialogue V).Allows j) (hj : j.enqueues = [.response (some hd) r]) (hu : UserSent gr S r0)
    (hr : r = r0 ∨ r = r0.restrict) : ToldOk gr S V [j] := by
  refine ⟨fun j' hj' => by cases hj'; exact h, .inr ⟨j, rfl⟩, ?_⟩
  intro hd' r' hm
  have hm : ServerMessage.response (some hd') r' ∈ j.enqueues := by simpa using hm
  rw [hj, List.mem_singleton] at hm
  cases hm
  exact ⟨r0, hu, hr⟩

/-- An event of the receiving side is passed on. -/
theorem Coupled.told (h : Coupled V U) {s : ClientSendState} (hS : SendOk L (ClientView.of U) s) {relaxed : Bool}
    {w : Bytes} {e : ClientEvent} (hg : Client.Guard L relaxed (ClientView.of U) (.received w e))
    {gr : Greeting} {S : List SItem} (hr : Reported gr S (ClientView.of U) e)
    (hsub : ∀ t ∈ (serverDialogue S).completed, t ∈ (serverDialogue V).completed)
    {J : List SItem} (hJ : J.map SItem.op? = e.answer.toList.map some) {o : ServerOptions} {gr' : Greeting}
    (hgJ : ∀ j, J = [j] → Server.Guard L o (ServerView.of gr' V) j) :
    Coupled (V ++ J) (U ++ [.received w e]) ∧ ToldOk gr S V J := by
  have hn := hS.now
  obtain ⟨hready, hin⟩ := h.ready hS hg rfl (gr := gr) (S := S) (fun w' hw => by cases hw; exact hr)
  have hphase := ServerView.of_phase gr' V
  have hv0 : (ClientView.of U).Same { ClientView.of U with consumed := (ClientView.of U).consumed ++ w } :=
    ⟨rfl, rfl, rfl, rfl, rfl, rfl⟩
  have hdat : ∀ e, (U ++ [CItem.received w e]).filterMap CItem.data? = U.filterMap CItem.data? := fun e => by
    rw [snoc_datas]; exact List.append_nil _
  -- the view does not change
  have same : ∀ e, (CItem.received w e).answer? = none → (ClientView.of U).Same ((ClientView.of U).observe (.received w e)) →
      InStep ((ClientView.of U).observe (.received w e)) (serverPhase V) → Coupled V (U ++ [.received w e]) := by
    intro e ha hv hin
    refine ⟨?_, ?_, ?_, ?_, ?_, ?_⟩
    · rw [ClientView.of_snoc]; exact hin
    · rw [ClientView.of_snoc, hv.remaining]; exact h.running
    · rw [ClientView.of_snoc, hv.datas, hv.asked]; exact h.asked
    · rw [ClientView.of_snoc, hv.fed]; exact h.heard
    · rw [hdat]; exact h.datas
    · rw [clientAnswers_snoc, ha]; exact h.answers.trans (List.append_nil _).symm
  have one : ∀ op, e.answer = some op → ∃ j, J = [j] ∧ j.op? = some op := by
    intro op hop
    rw [hop] at hJ
    have := congrArg List.length hJ
    simp only [List.length_map, Option.toList_some, List.length_singleton] at this
    obtain ⟨j, rfl⟩ := List.length_eq_one_iff.mp this
    exact ⟨j, rfl, by simpa using hJ⟩
  cases hr with
  | greeting =>
    have hJ : J = [] := by simpa [ClientEvent.answer, ClientEvent.forwarded] using hJ
    subst hJ
    rw [List.append_nil]
    exact ⟨same _ rfl ⟨rfl, rfl, rfl, rfl, rfl, rfl⟩ hin, .nil⟩
  | data d hu =>
    obtain ⟨j, rfl, hj⟩ := one _ rfl
    obtain ⟨hd, rfl⟩ := SItem.op_enqueue hj
    refine ⟨(same _ rfl ⟨rfl, rfl, rfl, rfl, rfl, rfl⟩ hin).enqueue _ _, .single ?_ rfl hu (.inr rfl)⟩
    cases d <;> trivial
  | status st hu hc =>
    obtain ⟨j, rfl, hj⟩ := one _ rfl
    obtain ⟨hd, rfl⟩ := SItem.op_enqueue hj
    refine ⟨(same _ rfl ⟨rfl, rfl, rfl, rfl, rfl, rfl⟩ hin).enqueue _ _, .single ?_ rfl hu (.inr rfl)⟩
    cases st with
    | tagged t b => exact hsub t (hc t b rfl)
    | untagged b => trivial
    | bye c t => trivial
  | authContinue x q hc hx ha hu =>
    obtain ⟨j, rfl, hj⟩ := one _ rfl
    obtain ⟨r, rfl⟩ : ∃ r, j = .authContinue q r := by
      cases j with
      | enqueue hd r => cases r <;> cases hj
      | authContinue q' r => cases hj; exact ⟨r, rfl⟩
      | _ => cases hj
    have hp : serverPhase V = .authenticate := hready
    obtain ⟨hd, rfl⟩ : ∃ hd, r = .ok hd := (hgJ _ rfl).elim (·.2) fun hno => (hno.1 (hphase.trans hp)).elim
    have hask := h.asked hp
    refine ⟨⟨?_, ?_, ?_, ?_, ?_, ?_⟩, .single (r0 := .continuationRequest q) ?_ rfl hu (.inl rfl)⟩
    · rw [serverPhase_snoc, ClientView.of_snoc]; exact hin
    · rw [serverPhase_snoc, serverDialogue_snoc, ClientView.of_snoc]; exact h.running
    · intro _
      rw [serverDialogue_snoc, ClientView.of_snoc]
      show (serverDialogue V).asked + 1 + (ClientView.of U).datas.length = (ClientView.of U).asked + 1
      omega
    · rw [serverHeard_snoc, ClientView.of_snoc]
      exact (List.append_nil _).trans h.heard
    · rw [hdat, serverHeard_snoc]; simpa [SItem.heard?] using h.datas
    · rw [serverAnswers_snoc, clientAnswers_snoc, h.answers]; rfl
    · show (serverDialogue V).asked = 0
      omega
  | authFinish x ca b hc hx ha hu =>
    obtain ⟨j, rfl, hj⟩ := one _ rfl
    obtain ⟨r, rfl⟩ : ∃ r, j = .authFinish (.tagged x.2.tag b) r := by
      cases j with
      | enqueue hd r => cases r <;> cases hj
      | authFinish q' r => cases hj; exact ⟨r, rfl⟩
      | _ => cases hj
    have hp : serverPhase V = .authenticate := hready
    obtain ⟨hd, rfl⟩ : ∃ hd, r = .ok hd := (hgJ _ rfl).elim (·.2) fun hno => (hno.1 (hphase.trans hp)).elim
    have hask := h.asked hp
    obtain ⟨hs, q, hrem⟩ := ClientView.current_elim hc
    have hq := (h.inStep.authenticate hrem hx).2
    subst hq
    have hdone : (ClientView.of U).doneSet = false := hn.not_done fun y q hy => by
      rw [hrem] at hy; cases hy; exact (isAuthenticate_not hx).2
    have hrun := h.running
    rw [hp, hrem] at hrun
    refine ⟨⟨?_, ?_, ?_, ?_, ?_, ?_⟩, .single (r0 := .status (.tagged x.2.tag b)) ?_ rfl hu (.inl rfl)⟩
    · rw [serverPhase_snoc, ClientView.of_snoc]; exact hin
    · rw [serverPhase_snoc, serverDialogue_snoc]; rfl
    · rw [serverPhase_snoc]; intro h; cases h
    · rw [serverHeard_snoc, ClientView.of_snoc]
      refine (List.append_nil _).trans (h.heard.trans ?_)
      show _ = ((_ : ClientView).terminate _).fed
      rw [ClientView.fed_terminate (v := { ClientView.of U with consumed := (ClientView.of U).consumed ++ w }) hrem
        (by simp [saidEnded, ClientView.saidNow, hdone]), hv0.fed]
    · rw [hdat, serverHeard_snoc]; simpa [SItem.heard?] using h.datas
    · rw [serverAnswers_snoc, clientAnswers_snoc, h.answers]; rfl
    · exact ⟨by omega, _, _, hrun, rfl⟩
  | idleAccept x q hc hx ha hu =>
    obtain ⟨j, rfl, hj⟩ := one _ rfl
    obtain ⟨r, rfl⟩ : ∃ r, j = .idleAccept q r := by
      cases j with
      | enqueue hd r => cases r <;> cases hj
      | idleAccept q' r => cases hj; exact ⟨r, rfl⟩
      | _ => cases hj
    have hp : serverPhase V = .idlePending := hready
    obtain ⟨hd, rfl⟩ : ∃ hd, r = .ok hd := (hgJ _ rfl).elim (·.2) fun hno => (hno.1 (hphase.trans hp)).elim
    have hrun := h.running
    rw [hp] at hrun
    refine ⟨⟨?_, ?_, ?_, ?_, ?_, ?_⟩, .single (r0 := .continuationRequest q) trivial rfl hu (.inl rfl)⟩
    · rw [serverPhase_snoc, ClientView.of_snoc]; exact hin
    · rw [serverPhase_snoc, serverDialogue_snoc, ClientView.of_snoc]; exact hrun
    · rw [serverPhase_snoc]; intro h; cases h
    · rw [serverHeard_snoc, ClientView.of_snoc]
      exact (List.append_nil _).trans h.heard
    · rw [hdat, serverHeard_snoc]; simpa [SItem.heard?] using h.datas
    · rw [serverAnswers_snoc, clientAnswers_snoc, h.answers]; rfl
  | idleReject x b hc hx ha hu =>
    obtain ⟨j, rfl, hj⟩ := one _ rfl
    obtain ⟨r, rfl⟩ : ∃ r, j = .idleReject (.tagged x.2.tag b) r := by
      cases j with
      | enqueue hd r => cases r <;> cases hj
      | idleReject q' r => cases hj; exact ⟨r, rfl⟩
      | _ => cases hj
    have hp : serverPhase V = .idlePending := hready
    obtain ⟨hd, rfl⟩ : ∃ hd, r = .ok hd := (hgJ _ rfl).elim (·.2) fun hno => (hno.1 (hphase.trans hp)).elim
    obtain ⟨hs, q, hrem⟩ := ClientView.current_elim hc
    have hdone : (ClientView.of U).doneSet = false := by
      cases hd : (ClientView.of U).doneSet with
      | false => rfl
      | true => rw [(hn.of_idle hc hx).2.2.2 hd] at ha; cases ha
    have hq := (h.inStep.idleing hrem hx hdone).1
    subst hq
    have hrun := h.running
    rw [hp, hrem] at hrun
    refine ⟨⟨?_, ?_, ?_, ?_, ?_, ?_⟩, .single (r0 := .status (.tagged x.2.tag b)) ⟨_, _, hrun, rfl⟩ rfl hu (.inl rfl)⟩
    · rw [serverPhase_snoc, ClientView.of_snoc]; exact hin
    · rw [serverPhase_snoc, serverDialogue_snoc]; rfl
    · rw [serverPhase_snoc]; intro h; cases h
    · rw [serverHeard_snoc, ClientView.of_snoc]
      refine (List.append_nil _).trans (h.heard.trans ?_)
      show _ = ((_ : ClientView).terminate _).fed
      rw [ClientView.fed_terminate (v := { ClientView.of U with consumed := (ClientView.of U).consumed ++ w }) hrem
        (by simp [saidEnded, ClientView.saidNow, hdone]), hv0.fed]
    · rw [hdat, serverHeard_snoc]; simpa [SItem.heard?] using h.datas
    · rw [serverAnswers_snoc, clientAnswers_snoc, h.answers]; rfl

end ImapFlow
