import Verif.Proofs.DialogueServer

/-!
# Dialogues: how client and server move together

`Core` relates what an observer of the client sees to what an observer of the server sees.  The lemmas of this
file state how it changes with each step of one of the sides.
-/

namespace ImapFlow

variable {L : Lib}

/-- A message of the server that the client must not take for something else. -/
inductive Underway where
  /-- the continuation request for a literal -/
  | literal
  /-- an answer to AUTHENTICATE or IDLE -/
  | answer (a : Answer)
  deriving DecidableEq, Repr

/-- The continuation requests for literals that are on the way. -/
def flightLiterals : Option Underway → Nat
  | some .literal => 1
  | _ => 0

/-- The answers that are on the way. -/
def flightAnswers : Option Underway → List Answer
  | some (.answer a) => [a]
  | _ => []

/-- The synchronizing literals of a message of the client. -/
def eventSyncs (L : Lib) : ServerEvent → Nat
  | .commandReceived c => syncs (L.encodeCommand c)
  | _ => 0

/-- The synchronizing literals of several messages. -/
def saidSyncs (L : Lib) (es : List ServerEvent) : Nat := (es.map (eventSyncs L)).sum

theorem saidSyncs_append (a b : List ServerEvent) : saidSyncs L (a ++ b) = saidSyncs L a + saidSyncs L b := by
  simp [saidSyncs]

theorem saidSyncs_cons (a : ServerEvent) (b : List ServerEvent) :
    saidSyncs L (a :: b) = eventSyncs L a + saidSyncs L b := by simp [saidSyncs]

theorem saidSyncs_nil : saidSyncs L [] = 0 := rfl

theorem saidSyncs_datas (ds : List AuthenticateData) : saidSyncs L (ds.map .authenticateDataReceived) = 0 := by
  induction ds with
  | nil => rfl
  | cons a ds ih => rw [List.map_cons, saidSyncs_cons, ih]; rfl

/-- What was said in the course of the commands that ended. -/
def ClientView.saidBefore (v : ClientView) : List ServerEvent := (v.enqueued.zip v.ended).flatMap saidEnded

theorem ClientView.said_none {v : ClientView} (h : v.current = none) : v.said = v.saidBefore := by
  rw [ClientView.said, h]; exact List.append_nil _

theorem ClientView.said_some {v : ClientView} {x : RawHandle × Command} (h : v.current = some x) :
    v.said = v.saidBefore ++ v.saidNow x := by
  rw [ClientView.said, h]; rfl

/-- The tags of the commands that ended. -/
def ClientView.endedTags (v : ClientView) : List Tag := (v.enqueued.take v.ended.length).map fun x => x.2.tag

/-- The client waits for the acceptance of a literal. -/
def Pend (L : Lib) (v : ClientView) (c : Command) : Prop :=
  ∃ pre d post, L.encodeCommand c = pre ++ .literal d .sync :: post ∧ v.sent = wire pre ∧ v.released = syncs pre

/-- Regular commands. -/
def Regulars (D : List ServerEvent) : Prop := ∀ e ∈ D, ∃ c : Command, c.isRegular = true ∧ e = .commandReceived c

/-- When the server has heard `D` it expects a command. -/
def Opens (v : ClientView) (p : ServerPhase) (d : ServerDialogue) (D : List ServerEvent) : Prop :=
  (p = .command ∧ d.running = none ∧ Regulars D) ∨
  (p = .idle ∧ ∃ t D', d.running = some t ∧ t ∈ v.endedTags ∧ D = .idleDoneReceived :: D' ∧ Regulars D')

/-- The states of the client, of the server, of what was said but not heard, and of the message on the way. -/
inductive DialogueAt (L : Lib) (v : ClientView) (p : ServerPhase) (d : ServerDialogue) :
    List ServerEvent → Option Underway → Prop
  | fresh {D : List ServerEvent} : v.current = none → Opens v p d D → DialogueAt L v p d D none
  | saying {D : List ServerEvent} (x : RawHandle × Command) : v.current = some x → v.datas = [] → v.doneSet = false →
      v.asked = 0 → v.accepted = false → Opens v p d D → DialogueAt L v p d (D ++ [x.2.event]) none
  | literal (x : RawHandle × Command) : v.current = some x → x.2.isRegular = true → v.datas = [] → v.doneSet = false →
      v.asked = 0 → v.accepted = false → p = .command → d.running = none → Pend L v x.2 →
      DialogueAt L v p d [x.2.event] (some .literal)
  | heard (x : RawHandle × Command) : v.current = some x → p = .command → d.running = none →
      x.2.isRegular = true ∨ (x.2.isIdle = true ∧ v.doneSet = true) → DialogueAt L v p d [] none
  | authTalk {D : List ServerEvent} (x : RawHandle × Command) : v.current = some x → x.2.isAuthenticate = true →
      p = .authenticate → d.running = some x.2.tag → d.asked ≤ 1 → d.asked + v.datas.length = D.length + v.asked →
      D = [] ∨ (∃ a, D = [.authenticateDataReceived a]) → DialogueAt L v p d D none
  | authContinue (x : RawHandle × Command) (q : ContinuationRequest) : v.current = some x → x.2.isAuthenticate = true →
      p = .authenticate → d.running = some x.2.tag → d.asked = 1 → v.asked = v.datas.length →
      DialogueAt L v p d [] (some (.answer (.authenticateContinue q)))
  | authFinish (x : RawHandle × Command) (body : StatusBody) : v.current = some x → x.2.isAuthenticate = true →
      p = .command → d.running = none → v.asked = v.datas.length →
      DialogueAt L v p d [] (some (.answer (.authenticateFinish (.tagged x.2.tag body))))
  | idlePending (x : RawHandle × Command) : v.current = some x → x.2.isIdle = true → p = .idlePending →
      d.running = some x.2.tag → v.accepted = false → DialogueAt L v p d [] none
  | idleAccept (x : RawHandle × Command) (q : ContinuationRequest) : v.current = some x → x.2.isIdle = true →
      p = .idle → d.running = some x.2.tag → v.accepted = false → DialogueAt L v p d [] (some (.answer (.idleAccept q)))
  | idleReject (x : RawHandle × Command) (body : StatusBody) : v.current = some x → x.2.isIdle = true →
      p = .command → d.running = none → v.accepted = false →
      DialogueAt L v p d [] (some (.answer (.idleReject (.tagged x.2.tag body))))
  | idleOn (x : RawHandle × Command) : v.current = some x → x.2.isIdle = true → p = .idle → d.running = some x.2.tag →
      v.accepted = true → v.doneSet = false → DialogueAt L v p d [] none
  | idleDone (x : RawHandle × Command) : v.current = some x → x.2.isIdle = true → p = .idle → d.running = some x.2.tag →
      v.doneSet = true → DialogueAt L v p d [.idleDoneReceived] none

/-- The tag belongs to a command of which the server has heard everything. -/
def TagDone (v : ClientView) (D : List ServerEvent) (t : Tag) : Prop :=
  t ∈ v.endedTags ∨ ∃ x, v.current = some x ∧ x.2.tag = t ∧ D = [] ∧
    (x.2.isRegular = true ∨ (x.2.isIdle = true ∧ v.doneSet = true))

/-- How the observations of the two sides fit together: the client said what the server heard (`H`) and `D`, and
`fl` is on the way to the client; `m` literals of the current command were accepted by the server. -/
structure Core (L : Lib) (v : ClientView) (H : List ServerEvent) (p : ServerPhase) (d : ServerDialogue) (m : Nat)
    (D : List ServerEvent) (fl : Option Underway) : Prop where
  said : v.said = H ++ D
  joint : DialogueAt L v p d D fl
  count : saidSyncs L H + m = saidSyncs L v.saidBefore + v.released + flightLiterals fl
  completed : ∀ t ∈ d.completed, TagDone v D t

/-! ## Lists of fragments -/

theorem frag_syncs {fs pre post pre' post' : List Fragment} {d : Bytes} (h1 : fs = pre ++ .literal d .sync :: post)
    (h2 : fs = pre' ++ post') (h : (wire pre).length < (wire pre').length) : syncs pre + 1 ≤ syncs pre' := by
  rw [h1] at h2
  rcases List.append_eq_append_iff.mp h2 with ⟨r, hr, hr'⟩ | ⟨r, hr, -⟩
  · cases r with
    | nil => rw [hr, List.append_nil] at h; omega
    | cons f r =>
      simp only [List.cons_append, List.cons.injEq] at hr'
      obtain ⟨rfl, -⟩ := hr'
      rw [hr, syncs_append]
      simp only [syncs]
      omega
  · rw [hr, wire_append, List.length_append] at h
    omega

/-! ## Steps of the client -/

variable {v v' : ClientView} {H D : List ServerEvent} {p : ServerPhase} {d : ServerDialogue} {m : Nat} {fl : Option Underway}

/-- The changes of the view do not concern the dialogue. -/
structure SameView (L : Lib) (v v' : ClientView) : Prop where
  before : v'.saidBefore = v.saidBefore
  tags : v'.endedTags = v.endedTags
  current : v'.current = v.current
  released : v'.released = v.released
  asked : v'.asked = v.asked
  datas : v'.datas = v.datas
  accepted : v'.accepted = v.accepted
  doneSet : v'.doneSet = v.doneSet
  pend : ∀ x, v.current = some x → x.2.isRegular = true → Pend L v x.2 → Pend L v' x.2

theorem SameView.said (h : SameView L v v') : v'.said = v.said := by
  cases hc : v.current with
  | none => rw [v.said_none hc, v'.said_none (h.current.trans hc), h.before]
  | some x =>
    rw [v.said_some hc, v'.said_some (h.current.trans hc), h.before, ClientView.saidNow, ClientView.saidNow, h.datas,
      h.doneSet]

theorem Opens.congr {v' : ClientView} (h : Opens v p d D) (ht : ∀ t ∈ v.endedTags, t ∈ v'.endedTags) : Opens v' p d D := by
  rcases h with h | ⟨h1, t, D', h2, h3, h4⟩
  · exact .inl h
  · exact .inr ⟨h1, t, D', h2, ht t h3, h4⟩

theorem Opens.snoc (h : Opens v p d D) {e : ServerEvent} (he : ∃ c : Command, c.isRegular = true ∧ e = .commandReceived c) :
    Opens v p d (D ++ [e]) := by
  have key : ∀ D, Regulars D → Regulars (D ++ [e]) := by
    intro D hD e' he'
    rcases List.mem_append.mp he' with h | h
    · exact hD e' h
    · rw [List.mem_singleton.mp h]; exact he
  rcases h with ⟨h1, h2, h3⟩ | ⟨h1, t, D', h2, h3, h4, h5⟩
  · exact .inl ⟨h1, h2, key D h3⟩
  · exact .inr ⟨h1, t, D' ++ [e], h2, h3, by rw [h4]; rfl, key D' h5⟩

theorem DialogueAt.congr (h : DialogueAt L v p d D fl) (s : SameView L v v') : DialogueAt L v' p d D fl := by
  have ht : ∀ t ∈ v.endedTags, t ∈ v'.endedTags := fun t ht => by rw [s.tags]; exact ht
  have hc := s.current
  cases h with
  | fresh h1 h2 => exact .fresh (hc.trans h1) (h2.congr ht)
  | saying x h1 h2 h3 h4 h5 h6 =>
    exact .saying x (hc.trans h1) (s.datas.trans h2) (s.doneSet.trans h3) (s.asked.trans h4) (s.accepted.trans h5) (h6.congr ht)
  | literal x h1 h2 h3 h4 h5 h6 h7 h8 h9 =>
    exact .literal x (hc.trans h1) h2 (s.datas.trans h3) (s.doneSet.trans h4) (s.asked.trans h5) (s.accepted.trans h6) h7 h8
      (s.pend x h1 h2 h9)
  | heard x h1 h2 h3 h4 => exact .heard x (hc.trans h1) h2 h3 (by rw [s.doneSet]; exact h4)
  | authTalk x h1 h2 h3 h4 h5 h6 h7 =>
    exact .authTalk x (hc.trans h1) h2 h3 h4 h5 (by rw [s.datas, s.asked]; exact h6) h7
  | authContinue x q h1 h2 h3 h4 h5 h6 =>
    exact .authContinue x q (hc.trans h1) h2 h3 h4 h5 (by rw [s.datas, s.asked]; exact h6)
  | authFinish x b h1 h2 h3 h4 h5 => exact .authFinish x b (hc.trans h1) h2 h3 h4 (by rw [s.datas, s.asked]; exact h5)
  | idlePending x h1 h2 h3 h4 h5 => exact .idlePending x (hc.trans h1) h2 h3 h4 (s.accepted.trans h5)
  | idleAccept x q h1 h2 h3 h4 h5 => exact .idleAccept x q (hc.trans h1) h2 h3 h4 (s.accepted.trans h5)
  | idleReject x b h1 h2 h3 h4 h5 => exact .idleReject x b (hc.trans h1) h2 h3 h4 (s.accepted.trans h5)
  | idleOn x h1 h2 h3 h4 h5 h6 => exact .idleOn x (hc.trans h1) h2 h3 h4 (s.accepted.trans h5) (s.doneSet.trans h6)
  | idleDone x h1 h2 h3 h4 h5 => exact .idleDone x (hc.trans h1) h2 h3 h4 (s.doneSet.trans h5)

theorem Core.congr (h : Core L v H p d m D fl) (s : SameView L v v') : Core L v' H p d m D fl where
  said := by rw [s.said]; exact h.said
  joint := h.joint.congr s
  count := by rw [s.before, s.released]; exact h.count
  completed t ht := by
    rcases h.completed t ht with h | ⟨x, h1, h2, h3, h4⟩
    · exact .inl (by rw [s.tags]; exact h)
    · exact .inr ⟨x, s.current.trans h1, h2, h3, by rw [s.doneSet]; exact h4⟩

theorem ClientView.current_sent {v : ClientView} {x : RawHandle × Command} (h : v.current = some x) : v.sent ≠ [] := by
  intro h0
  simp [ClientView.current, h0] at h

theorem Now.of_none {v : ClientView} (hn : Now L v) (h : v.current = none) : v.Fresh := by
  cases hn with
  | fresh h => exact h
  | regular _ _ _ _ _ h1 h2 => simp [ClientView.current, h1, h2] at h
  | authenticate _ _ _ _ h1 h2 => simp [ClientView.current, h1, h2] at h
  | idle _ _ _ h1 h2 => simp [ClientView.current, h1, h2] at h

/-- The first bytes of a command are handed out. -/
theorem Core.begin (h : Core L v H p d m D fl) (hf : v.Fresh) {b : Bytes} (hb : b ≠ []) {x : RawHandle × Command}
    {q : List (RawHandle × Command)} (hr : v.remaining = x :: q) :
    Core L { v with sent := v.sent ++ b } H p d m (D ++ [x.2.event]) fl := by
  have hcn : v.current = none := by simp [ClientView.current, hf.1]
  obtain ⟨f1, f2, f3, f4, f5, f6, f7⟩ := hf
  have hc : ({ v with sent := v.sent ++ b } : ClientView).current = some x := by
    show (if v.sent ++ b = [] then none else v.remaining.head?) = some x
    rw [if_neg (by simp [hb]), hr]; rfl
  have hnow : ({ v with sent := v.sent ++ b } : ClientView).saidNow x = [x.2.event] := by
    show x.2.event :: v.datas.map .authenticateDataReceived ++ (if v.doneSet then [.idleDoneReceived] else []) = _
    rw [f5, f7]; rfl
  refine ⟨?_, ?_, h.count, ?_⟩
  · rw [ClientView.said_some hc, hnow]
    show v.saidBefore ++ _ = _
    rw [← v.said_none hcn, h.said, List.append_assoc]
  · cases h.joint with
    | fresh h1 h2 => exact .saying x hc f5 f7 f4 f6 h2
    | saying y h1 => rw [hcn] at h1; cases h1
    | literal y h1 => rw [hcn] at h1; cases h1
    | heard y h1 => rw [hcn] at h1; cases h1
    | authTalk y h1 => rw [hcn] at h1; cases h1
    | authContinue y q h1 => rw [hcn] at h1; cases h1
    | authFinish y b h1 => rw [hcn] at h1; cases h1
    | idlePending y h1 => rw [hcn] at h1; cases h1
    | idleAccept y q h1 => rw [hcn] at h1; cases h1
    | idleReject y b h1 => rw [hcn] at h1; cases h1
    | idleOn y h1 => rw [hcn] at h1; cases h1
    | idleDone y h1 => rw [hcn] at h1; cases h1
  · intro t ht
    rcases h.completed t ht with h | ⟨y, h1, -⟩
    · exact .inl h
    · rw [hcn] at h1; cases h1

theorem Command.regular_not_authenticate {c : Command} (h : c.isRegular = true) (h' : c.isAuthenticate = true) : False := by
  obtain ⟨o, ho⟩ := Command.body_of_regular h
  simp [Command.isAuthenticate, ho] at h'

theorem Command.regular_not_idle {c : Command} (h : c.isRegular = true) (h' : c.isIdle = true) : False := by
  obtain ⟨o, ho⟩ := Command.body_of_regular h
  simp [Command.isIdle, ho] at h'

theorem Command.authenticate_not_idle {c : Command} (h : c.isAuthenticate = true) (h' : c.isIdle = true) : False := by
  obtain ⟨a, b, ho⟩ := Command.body_of_authenticate h
  simp [Command.isIdle, ho] at h'

/-- More bytes of a command are handed out. -/
theorem SameView.more {b : Bytes} (hs : v.sent ≠ []) (hg : OutputGuard L v b) :
    SameView L v { v with sent := v.sent ++ b } where
  before := rfl
  tags := rfl
  current := by
    show (if v.sent ++ b = [] then none else v.remaining.head?) = if v.sent = [] then none else v.remaining.head?
    rw [if_neg (by simp [hs]), if_neg hs]
  released := rfl
  asked := rfl
  datas := rfl
  accepted := rfl
  doneSet := rfl
  pend := by
    rintro x hx hreg ⟨pre, dd, post, h1, h2, h3⟩
    exfalso
    obtain ⟨hb, h, cmd, q, hr, hg⟩ := hg
    obtain ⟨q', hr'⟩ := ClientView.remaining_of_current hx
    have hx' : (h, cmd) = x := (List.cons.inj (hr.symm.trans hr')).1
    subst hx'
    rcases hg with ⟨-, -, pre', post', e1, e2, e3, -⟩ | ⟨ha, hg⟩ | ⟨ha, -, hg⟩
    · have := frag_syncs h1 e1 (by
        rw [← e2, ← h2, List.length_append]
        have := List.length_pos_iff.mpr hb
        omega)
      omega
    · exact Command.regular_not_authenticate hreg ha
    · exact Command.regular_not_idle hreg ha

/-! ### The command in progress -/

theorem Now.of_regular (h : Now L v) {x : RawHandle × Command} (hc : v.current = some x) (hr : x.2.isRegular = true) :
    v.asked = 0 ∧ v.datas = [] ∧ v.accepted = false ∧ v.doneSet = false := by
  obtain ⟨q', hq⟩ := ClientView.remaining_of_current hc
  cases h with
  | fresh h => exact absurd h.1 (ClientView.current_sent hc)
  | regular h cmd q pre post h1 h2 h3 h4 h5 h6 h7 => exact ⟨h4, h5, h6, h7⟩
  | authenticate h cmd q ds h1 h2 h3 =>
    have := (List.cons.inj (h1.symm.trans hq)).1
    subst this
    exact (Command.regular_not_authenticate hr h3).elim
  | idle h cmd q h1 h2 h3 =>
    have := (List.cons.inj (h1.symm.trans hq)).1
    subst this
    exact (Command.regular_not_idle hr h3).elim

theorem Now.of_authenticate (h : Now L v) {x : RawHandle × Command} (hc : v.current = some x)
    (hr : x.2.isAuthenticate = true) : v.released = 0 ∧ v.accepted = false ∧ v.doneSet = false ∧
    (v.asked = v.datas.length ∨ v.asked = v.datas.length + 1) := by
  obtain ⟨q', hq⟩ := ClientView.remaining_of_current hc
  cases h with
  | fresh h => exact absurd h.1 (ClientView.current_sent hc)
  | regular h cmd q pre post h1 h2 h3 h4 h5 h6 h7 =>
    have := (List.cons.inj (h1.symm.trans hq)).1
    subst this
    exact (Command.regular_not_authenticate h3 hr).elim
  | authenticate h cmd q ds h1 h2 h3 h4 h5 h6 h7 h8 =>
    refine ⟨h4, h5, h6, ?_⟩
    rcases h8 with ⟨-, h8⟩ | ⟨_, -, h8⟩
    · exact h8
    · exact .inl h8
  | idle h cmd q h1 h2 h3 =>
    have := (List.cons.inj (h1.symm.trans hq)).1
    subst this
    exact (Command.authenticate_not_idle hr h3).elim

theorem Now.of_idle (h : Now L v) {x : RawHandle × Command} (hc : v.current = some x)
    (hr : x.2.isIdle = true) : v.released = 0 ∧ v.asked = 0 ∧ v.datas = [] ∧ (v.doneSet = true → v.accepted = true) := by
  obtain ⟨q', hq⟩ := ClientView.remaining_of_current hc
  cases h with
  | fresh h => exact absurd h.1 (ClientView.current_sent hc)
  | regular h cmd q pre post h1 h2 h3 h4 h5 h6 h7 =>
    have := (List.cons.inj (h1.symm.trans hq)).1
    subst this
    exact (Command.regular_not_idle h3 hr).elim
  | authenticate h cmd q ds h1 h2 h3 h4 h5 h6 h7 h8 =>
    have := (List.cons.inj (h1.symm.trans hq)).1
    subst this
    exact (Command.authenticate_not_idle h3 hr).elim
  | idle h cmd q h1 h2 h3 h4 h5 h6 h7 => exact ⟨h4, h5, h6, h7⟩

/-! ### The end of a command -/

theorem ClientView.terminate_before {e : ClientEvent} {x : RawHandle × Command} {q : List (RawHandle × Command)}
    (hr : v.remaining = x :: q) :
    (v.terminate e).saidBefore = v.saidBefore ++ saidEnded (x, ⟨e, v.sent, v.datas⟩) ∧
    (v.terminate e).endedTags = v.endedTags ++ [x.2.tag] := by
  have hle : v.ended.length < v.enqueued.length := by
    have := congrArg List.length hr
    simp only [ClientView.remaining, List.length_drop, List.length_cons] at this
    omega
  have he : v.enqueued = v.enqueued.take v.ended.length ++ x :: q := by
    conv => lhs; rw [← List.take_append_drop v.ended.length v.enqueued]
    rw [show v.enqueued.drop v.ended.length = x :: q from hr]
  have hl : (v.enqueued.take v.ended.length).length = v.ended.length := by rw [List.length_take]; omega
  constructor
  · show (v.enqueued.zip (v.ended ++ [_])).flatMap saidEnded = (v.enqueued.zip v.ended).flatMap saidEnded ++ _
    have e1 : v.enqueued.zip v.ended = (v.enqueued.take v.ended.length).zip v.ended := by
      have := List.zip_append (r₁ := x :: q) (r₂ := []) hl
      rw [List.append_nil, ← he] at this
      rw [this]
      simp
    have e2 : v.enqueued.zip (v.ended ++ [⟨e, v.sent, v.datas⟩]) =
        (v.enqueued.take v.ended.length).zip v.ended ++ [(x, ⟨e, v.sent, v.datas⟩)] := by
      conv => lhs; rw [he]
      rw [List.zip_append hl]
      simp
    rw [e1, e2, List.flatMap_append]
    simp
  · show (v.enqueued.take (v.ended ++ [_]).length).map _ = (v.enqueued.take v.ended.length).map _ ++ _
    rw [List.length_append, List.length_singleton, List.take_add_one,
      show v.enqueued[v.ended.length]? = some x by
        rw [he, List.getElem?_append_right (by omega), hl, Nat.sub_self]; rfl]
    simp

theorem Core.terminate (h : Core L v H p d m D fl) {x : RawHandle × Command} {e : ClientEvent} (hc : v.current = some x)
    (hs : saidEnded (x, ⟨e, v.sent, v.datas⟩) = v.saidNow x)
    (hy : saidSyncs L (v.saidNow x) = v.released + flightLiterals fl)
    (ho : Opens (v.terminate e) p d D) : Core L (v.terminate e) H p d m D none := by
  obtain ⟨q, hr⟩ := ClientView.remaining_of_current hc
  obtain ⟨h1, h2⟩ := ClientView.terminate_before (e := e) hr
  have hn : (v.terminate e).current = none := ClientView.current_none rfl
  refine ⟨?_, .fresh hn ho, ?_, ?_⟩
  · rw [ClientView.said_none hn, h1, hs, ← ClientView.said_some hc, h.said]
  · have := h.count
    rw [h1, hs, saidSyncs_append, hy]
    show _ = _ + 0 + 0
    omega
  · intro t ht
    refine .inl ?_
    rw [h2]
    rcases h.completed t ht with h | ⟨y, h1, h2, -⟩
    · exact List.mem_append_left _ h
    · rw [hc] at h1
      cases h1
      exact List.mem_append_right _ (by simp [h2])

theorem Opens.terminate (h : Opens v p d D) {x : RawHandle × Command} {q : List (RawHandle × Command)}
    (hr : v.remaining = x :: q) (e : ClientEvent) : Opens (v.terminate e) p d D :=
  h.congr fun t ht => by rw [(ClientView.terminate_before hr).2]; exact List.mem_append_left _ ht

theorem Core.commandSent (h : Core L v H p d m D fl) (hn : Now L v) {x : RawHandle × Command} (hc : v.current = some x)
    (hr : x.2.isRegular = true) (hrel : v.released = syncs (L.encodeCommand x.2)) :
    fl = none ∧ Core L (v.terminate (.commandSent x.1 x.2)) H p d m D none := by
  obtain ⟨-, n2, -, n4⟩ := hn.of_regular hc hr
  obtain ⟨q, hq⟩ := ClientView.remaining_of_current hc
  have hs : saidEnded (x, ⟨.commandSent x.1 x.2, v.sent, v.datas⟩) = v.saidNow x := by
    simp [saidEnded, ClientView.saidNow, n4]
  have hy : saidSyncs L (v.saidNow x) = v.released := by
    rw [ClientView.saidNow, n2, n4, Command.event_regular hr, hrel]
    simp [saidSyncs, eventSyncs]
  have done : fl = none → Opens (v.terminate (.commandSent x.1 x.2)) p d D →
      fl = none ∧ Core L (v.terminate (.commandSent x.1 x.2)) H p d m D none := by
    rintro rfl ho
    exact ⟨rfl, h.terminate hc hs hy ho⟩
  have hj := h.joint
  cases hj with
  | fresh h1 => rw [hc] at h1; cases h1
  | saying y h1 h2 h3 h4 h5 h6 =>
    rw [hc] at h1; cases h1
    exact done rfl ((h6.snoc ⟨x.2, hr, Command.event_regular hr⟩).terminate hq _)
  | literal y h1 h2 h3 h4 h5 h6 h7 h8 h9 =>
    rw [hc] at h1; cases h1
    obtain ⟨pre, dd, post, e1, e2, e3⟩ := h9
    rw [e3, e1, syncs_append] at hrel
    simp only [syncs] at hrel
    omega
  | heard y h1 h2 h3 h4 => exact done rfl (.inl ⟨h2, h3, nofun⟩)
  | authTalk y h1 h2 => rw [hc] at h1; cases h1; exact (Command.regular_not_authenticate hr h2).elim
  | authContinue y q h1 h2 => rw [hc] at h1; cases h1; exact (Command.regular_not_authenticate hr h2).elim
  | authFinish y b h1 h2 => rw [hc] at h1; cases h1; exact (Command.regular_not_authenticate hr h2).elim
  | idlePending y h1 h2 => rw [hc] at h1; cases h1; exact (Command.regular_not_idle hr h2).elim
  | idleAccept y q h1 h2 => rw [hc] at h1; cases h1; exact (Command.regular_not_idle hr h2).elim
  | idleReject y b h1 h2 => rw [hc] at h1; cases h1; exact (Command.regular_not_idle hr h2).elim
  | idleOn y h1 h2 => rw [hc] at h1; cases h1; exact (Command.regular_not_idle hr h2).elim
  | idleDone y h1 h2 => rw [hc] at h1; cases h1; exact (Command.regular_not_idle hr h2).elim

theorem Command.event_idle {c : Command} (h : c.isIdle = true) : c.event = .idleCommandReceived c.tag := by
  rw [Command.event, Command.body_of_idle h]

theorem Command.event_authenticate {c : Command} (h : c.isAuthenticate = true) :
    ∃ ca, c.event = .commandAuthenticateReceived ca ∧ ca.tag = c.tag := by
  obtain ⟨a, b, hb⟩ := Command.body_of_authenticate h
  rw [Command.event, hb]
  exact ⟨_, rfl, rfl⟩

theorem Core.idleDoneSent (h : Core L v H p d m D fl) (hn : Now L v) {x : RawHandle × Command} (hc : v.current = some x)
    (hr : x.2.isIdle = true) (hd : v.doneSet = true) :
    fl = none ∧ Core L (v.terminate (.idleDoneSent x.1)) H p d m D none := by
  obtain ⟨n1, -, n2, n4⟩ := hn.of_idle hc hr
  obtain ⟨q, hq⟩ := ClientView.remaining_of_current hc
  have hs : saidEnded (x, ⟨.idleDoneSent x.1, v.sent, v.datas⟩) = v.saidNow x := by
    simp [saidEnded, ClientView.saidNow, hd]
  have hy : saidSyncs L (v.saidNow x) = v.released := by
    rw [ClientView.saidNow, n2, hd, Command.event_idle hr, n1]
    simp [saidSyncs, eventSyncs]
  have done : fl = none → Opens (v.terminate (.idleDoneSent x.1)) p d D →
      fl = none ∧ Core L (v.terminate (.idleDoneSent x.1)) H p d m D none := by
    rintro rfl ho
    exact ⟨rfl, h.terminate hc hs hy ho⟩
  have ha := n4 hd
  have hj := h.joint
  cases hj with
  | fresh h1 => rw [hc] at h1; cases h1
  | saying y h1 h2 h3 h4 h5 h6 => rw [hd] at h3; cases h3
  | literal y h1 h2 h3 h4 => rw [hd] at h4; cases h4
  | heard y h1 h2 h3 h4 => exact done rfl (.inl ⟨h2, h3, nofun⟩)
  | authTalk y h1 h2 => rw [hc] at h1; cases h1; exact (Command.authenticate_not_idle h2 hr).elim
  | authContinue y q h1 h2 => rw [hc] at h1; cases h1; exact (Command.authenticate_not_idle h2 hr).elim
  | authFinish y b h1 h2 => rw [hc] at h1; cases h1; exact (Command.authenticate_not_idle h2 hr).elim
  | idlePending y h1 h2 h3 h4 h5 => rw [ha] at h5; cases h5
  | idleAccept y q h1 h2 h3 h4 h5 => rw [ha] at h5; cases h5
  | idleReject y b h1 h2 h3 h4 h5 => rw [ha] at h5; cases h5
  | idleOn y h1 h2 h3 h4 h5 h6 => rw [hd] at h6; cases h6
  | idleDone y h1 h2 h3 h4 =>
    rw [hc] at h1; cases h1
    exact done rfl (.inr ⟨h3, x.2.tag, [], h4, by rw [(ClientView.terminate_before hq).2]; simp, rfl, nofun⟩)

/-! ### Data and DONE -/

theorem Core.setAuth (h : Core L v H p d m D fl) (hn : Now L v) {x : RawHandle × Command} (hc : v.current = some x)
    (hr : x.2.isAuthenticate = true) (ha : v.asked = v.datas.length + 1) (a : AuthenticateData) :
    fl = none ∧ Core L { v with datas := v.datas ++ [a] } H p d m [.authenticateDataReceived a] none := by
  obtain ⟨n1, -, n2, -⟩ := hn.of_authenticate hc hr
  have hc' : ({ v with datas := v.datas ++ [a] } : ClientView).current = some x := hc
  have hj := h.joint
  have hcount := h.count
  have hcomp := h.completed
  have hsaid := h.said
  cases hj with
  | fresh h1 => rw [hc] at h1; cases h1
  | saying y h1 h2 h3 h4 => omega
  | literal y h1 h2 h3 h4 h5 => omega
  | heard y h1 h2 h3 h4 =>
    rw [hc] at h1; cases h1
    rcases h4 with h4 | ⟨h4, -⟩
    · exact (Command.regular_not_authenticate h4 hr).elim
    · exact (Command.authenticate_not_idle hr h4).elim
  | authTalk y h1 h2 h3 h4 h5 h6 h7 =>
    rw [hc] at h1; cases h1
    have hD : D = [] := List.length_eq_zero_iff.mp (by omega)
    subst hD
    refine ⟨rfl, ?_, .authTalk x hc' hr h3 h4 h5 ?_ (.inr ⟨a, rfl⟩), hcount, ?_⟩
    · rw [ClientView.said_some hc']
      rw [ClientView.said_some hc, List.append_nil] at hsaid
      rw [← hsaid]
      show v.saidBefore ++ (x.2.event :: (v.datas ++ [a]).map _ ++ if v.doneSet then _ else _) = _
      simp [ClientView.saidNow, n2]
    · show d.asked + (v.datas ++ [a]).length = 1 + v.asked
      simp
      omega
    · intro t ht
      rcases hcomp t ht with h | ⟨y, h1, -, -, h4⟩
      · exact .inl h
      · rw [hc] at h1; cases h1
        rcases h4 with h4 | ⟨h4, -⟩
        · exact (Command.regular_not_authenticate h4 hr).elim
        · exact (Command.authenticate_not_idle hr h4).elim
  | authContinue y q h1 h2 h3 h4 h5 h6 => omega
  | authFinish y b h1 h2 h3 h4 h5 => omega
  | idlePending y h1 h2 => rw [hc] at h1; cases h1; exact (Command.authenticate_not_idle hr h2).elim
  | idleAccept y q h1 h2 => rw [hc] at h1; cases h1; exact (Command.authenticate_not_idle hr h2).elim
  | idleReject y b h1 h2 => rw [hc] at h1; cases h1; exact (Command.authenticate_not_idle hr h2).elim
  | idleOn y h1 h2 => rw [hc] at h1; cases h1; exact (Command.authenticate_not_idle hr h2).elim
  | idleDone y h1 h2 => rw [hc] at h1; cases h1; exact (Command.authenticate_not_idle hr h2).elim

theorem Core.setDone (h : Core L v H p d m D fl) {x : RawHandle × Command} (hc : v.current = some x)
    (hr : x.2.isIdle = true) (ha : v.accepted = true) (hd : v.doneSet = false) :
    fl = none ∧ Core L { v with doneSet := true } H p d m [.idleDoneReceived] none := by
  have hc' : ({ v with doneSet := true } : ClientView).current = some x := hc
  have hj := h.joint
  have hcount := h.count
  have hcomp := h.completed
  have hsaid := h.said
  cases hj with
  | fresh h1 => rw [hc] at h1; cases h1
  | saying y h1 h2 h3 h4 h5 => rw [ha] at h5; cases h5
  | literal y h1 h2 h3 h4 h5 h6 => rw [ha] at h6; cases h6
  | heard y h1 h2 h3 h4 =>
    rw [hc] at h1; cases h1
    rcases h4 with h4 | ⟨-, h4⟩
    · exact (Command.regular_not_idle h4 hr).elim
    · rw [hd] at h4; cases h4
  | authTalk y h1 h2 => rw [hc] at h1; cases h1; exact (Command.authenticate_not_idle h2 hr).elim
  | authContinue y q h1 h2 => rw [hc] at h1; cases h1; exact (Command.authenticate_not_idle h2 hr).elim
  | authFinish y b h1 h2 => rw [hc] at h1; cases h1; exact (Command.authenticate_not_idle h2 hr).elim
  | idlePending y h1 h2 h3 h4 h5 => rw [ha] at h5; cases h5
  | idleAccept y q h1 h2 h3 h4 h5 => rw [ha] at h5; cases h5
  | idleReject y b h1 h2 h3 h4 h5 => rw [ha] at h5; cases h5
  | idleOn y h1 h2 h3 h4 h5 h6 =>
    rw [hc] at h1; cases h1
    refine ⟨rfl, ?_, .idleDone x hc' hr h3 h4 rfl, hcount, ?_⟩
    · rw [ClientView.said_some hc']
      rw [ClientView.said_some hc, List.append_nil] at hsaid
      rw [← hsaid]
      show v.saidBefore ++ (x.2.event :: v.datas.map _ ++ if true then _ else _) = _
      simp [ClientView.saidNow, hd]
    · intro t ht
      rcases hcomp t ht with h | ⟨y, h1, -, -, h4⟩
      · exact .inl h
      · rw [hc] at h1; cases h1
        rcases h4 with h4 | ⟨-, h4⟩
        · exact (Command.regular_not_idle h4 hr).elim
        · rw [hd] at h4; cases h4
  | idleDone y h1 h2 h3 h4 h5 => rw [hd] at h5; cases h5

/-! ### Messages of the server that the client reads -/

theorem Core.readLiteral (h : Core L v H p d m D (some .literal)) :
    Core L { v with released := v.released + 1 } H p d m D none := by
  obtain ⟨hsaid, hj, hcount, hcomp⟩ := h
  cases hj with
  | literal x h1 h2 h3 h4 h5 h6 h7 h8 h9 =>
    refine ⟨hsaid, .saying (D := []) x h1 h3 h4 h5 h6 (.inl ⟨h7, h8, nofun⟩), ?_, ?_⟩
    · simp only [flightLiterals] at hcount
      show _ = saidSyncs L v.saidBefore + (v.released + 1) + 0
      omega
    · intro t ht
      rcases hcomp t ht with h | ⟨y, -, -, h3, -⟩
      · exact .inl h
      · cases h3

theorem Core.readContinue {q : ContinuationRequest} (h : Core L v H p d m D (some (.answer (.authenticateContinue q)))) :
    Core L { v with asked := v.asked + 1 } H p d m D none := by
  obtain ⟨hsaid, hj, hcount, hcomp⟩ := h
  cases hj with
  | authContinue x q h1 h2 h3 h4 h5 h6 =>
    refine ⟨hsaid, .authTalk x h1 h2 h3 h4 (by omega) ?_ (.inl rfl), hcount, hcomp⟩
    show d.asked + v.datas.length = 0 + (v.asked + 1)
    omega

theorem Core.readFinish {st : Status} (h : Core L v H p d m D (some (.answer (.authenticateFinish st)))) (hn : Now L v)
    {x : RawHandle × Command} (hc : v.current = some x) (hr : x.2.isAuthenticate = true) {e : ClientEvent}
    (he : ∀ hd, e ≠ .idleDoneSent hd) : Core L (v.terminate e) H p d m D none := by
  obtain ⟨n1, -, n2, -⟩ := hn.of_authenticate hc hr
  obtain ⟨ca, hca, -⟩ := Command.event_authenticate hr
  refine h.terminate hc ?_ ?_ ?_
  · simp [saidEnded, ClientView.saidNow, he, n2]
  · rw [ClientView.saidNow, n2, hca, n1]
    rw [List.cons_append, saidSyncs_cons, saidSyncs_append, saidSyncs_datas]
    rfl
  · obtain ⟨hsaid, hj, hcount, hcomp⟩ := h
    cases hj with
    | authFinish y b h1 h2 h3 h4 h5 => exact .inl ⟨h3, h4, nofun⟩

theorem Core.readAccept {q : ContinuationRequest} (h : Core L v H p d m D (some (.answer (.idleAccept q)))) (hn : Now L v) :
    Core L { v with accepted := true } H p d m D none := by
  obtain ⟨hsaid, hj, hcount, hcomp⟩ := h
  cases hj with
  | idleAccept x q h1 h2 h3 h4 h5 =>
    obtain ⟨-, -, -, n4⟩ := hn.of_idle h1 h2
    have hd : v.doneSet = false := by
      cases hd : v.doneSet with
      | false => rfl
      | true => rw [n4 hd] at h5; cases h5
    exact ⟨hsaid, .idleOn x h1 h2 h3 h4 rfl hd, hcount, hcomp⟩

theorem Core.readReject {st : Status} (h : Core L v H p d m D (some (.answer (.idleReject st)))) (hn : Now L v)
    {x : RawHandle × Command} (hc : v.current = some x) (hr : x.2.isIdle = true) {e : ClientEvent}
    (he : ∀ hd, e ≠ .idleDoneSent hd) : Core L (v.terminate e) H p d m D none := by
  obtain ⟨n1, -, n2, n4⟩ := hn.of_idle hc hr
  have hd : v.doneSet = false := by
    obtain ⟨hsaid, hj, hcount, hcomp⟩ := h
    cases hj with
    | idleReject y b h1 h2 h3 h4 h5 =>
      cases hd : v.doneSet with
      | false => rfl
      | true => rw [n4 hd] at h5; cases h5
  refine h.terminate hc ?_ ?_ ?_
  · simp [saidEnded, ClientView.saidNow, he, hd]
  · rw [ClientView.saidNow, n2, hd, Command.event_idle hr, n1]
    simp [saidSyncs, eventSyncs, flightLiterals]
  · obtain ⟨hsaid, hj, hcount, hcomp⟩ := h
    cases hj with
    | idleReject y b h1 h2 h3 h4 h5 => exact .inl ⟨h3, h4, nofun⟩

/-! ## Steps of the server -/

/-- Bookkeeping of a message. -/
def ServerDialogue.hear (d : ServerDialogue) (e : ServerEvent) : ServerDialogue := d.observe (.received [] e)

theorem ServerDialogue.observe_received (d : ServerDialogue) (w : Bytes) (e : ServerEvent) :
    d.observe (.received w e) = d.hear e := by cases e <;> rfl

/-- The server expects this kind of message. -/
def Sayable (p : ServerPhase) (e : ServerEvent) : Prop :=
  (p = .command ∧ ∃ c : Command, e = c.event) ∨ (p = .authenticate ∧ ∃ a, e = .authenticateDataReceived a) ∨
  (p = .idle ∧ e = .idleDoneReceived)

theorem Opens.sayable {e : ServerEvent} (h : Opens v p d (e :: D)) : Sayable p e := by
  rcases h with ⟨h1, h2, h3⟩ | ⟨h1, t, D', h2, h3, h4, h5⟩
  · obtain ⟨c, hc, rfl⟩ := h3 e List.mem_cons_self
    exact .inl ⟨h1, c, (Command.event_regular hc).symm⟩
  · cases h4
    exact .inr (.inr ⟨h1, rfl⟩)

theorem Core.sayable {e : ServerEvent} (h : Core L v H p d m (e :: D) fl) : Sayable p e := by
  have hj := h.joint
  generalize hD : e :: D = D' at hj
  cases hj with
  | fresh h1 h2 => rw [← hD] at h2; exact h2.sayable
  | @saying D0 x h1 h2 h3 h4 h5 h6 =>
    cases D0 with
    | nil =>
      cases hD
      rcases h6 with ⟨h6, -⟩ | ⟨-, _, _, -, -, h6, -⟩
      · exact .inl ⟨h6, _, rfl⟩
      · cases h6
    | cons e' D0 =>
      cases hD
      exact h6.sayable
  | literal x h1 h2 h3 h4 h5 h6 h7 => cases hD; exact .inl ⟨h7, _, rfl⟩
  | authTalk x h1 h2 h3 h4 h5 h6 h7 =>
    rcases h7 with h7 | ⟨a, h7⟩
    · rw [h7] at hD; cases hD
    · rw [h7] at hD; cases hD; exact .inr (.inl ⟨h3, a, rfl⟩)
  | idleDone x h1 h2 h3 => cases hD; exact .inr (.inr ⟨h3, rfl⟩)
  | _ => cases hD

theorem mem_saidBefore {c : Command} (h : .commandReceived c ∈ v.saidBefore) : c.tag ∈ v.endedTags := by
  obtain ⟨⟨x, en⟩, hm, he⟩ := List.mem_flatMap.mp h
  have hx : x.2.event = .commandReceived c := by
    simp only [saidEnded, List.cons_append, List.mem_cons, List.mem_append, List.mem_map] at he
    rcases he with he | ⟨a, -, he⟩ | he
    · exact he.symm
    · cases he
    · split at he
      · simp at he
      · cases he
  have hxc : x.2 = c := by
    obtain ⟨hd, tag, body⟩ := x
    cases body <;> simp [Command.event] at hx
    exact hx
  obtain ⟨j, hj⟩ := List.mem_iff_getElem?.mp hm
  obtain ⟨h1, h2⟩ := List.getElem?_zip_eq_some.mp hj
  have hlt := (List.getElem?_eq_some_iff.mp h2).1
  refine List.mem_map.mpr ⟨x, ?_, by rw [hxc]⟩
  refine List.mem_iff_getElem?.mpr ⟨j, ?_⟩
  rw [List.getElem?_take, if_pos hlt]
  exact h1

theorem Core.before_saying {x : RawHandle × Command} (h : v.said = H ++ (D ++ [x.2.event])) (hc : v.current = some x)
    (h2 : v.datas = []) (h3 : v.doneSet = false) : v.saidBefore = H ++ D := by
  rw [ClientView.said_some hc, ClientView.saidNow, h2, h3] at h
  simp only [List.map_nil, List.cons_append, List.nil_append, Bool.false_eq_true, if_false, ← List.append_assoc] at h
  exact List.append_cancel_right h

theorem Opens.hear {e : ServerEvent} (h : Opens v p d (e :: D)) : Opens v (e.phase p) (d.hear e) D := by
  rcases h with ⟨h1, h2, h3⟩ | ⟨h1, t, D', h2, h3, h4, h5⟩
  · obtain ⟨c, hc, rfl⟩ := h3 e List.mem_cons_self
    exact .inl ⟨h1, h2, fun e' he' => h3 e' (List.mem_cons_of_mem _ he')⟩
  · cases h4
    exact .inl ⟨rfl, rfl, h5⟩

theorem ServerDialogue.hear_completed {e : ServerEvent} {t : Tag} (h : t ∈ (d.hear e).completed) :
    t ∈ d.completed ∨ (∃ c, e = .commandReceived c ∧ t = c.tag) ∨ (e = .idleDoneReceived ∧ d.running = some t) := by
  cases e with
  | commandReceived c =>
    rcases List.mem_append.mp (show t ∈ d.completed ++ [c.tag] from h) with h | h
    · exact .inl h
    · exact .inr (.inl ⟨c, rfl, List.mem_singleton.mp h⟩)
  | idleDoneReceived =>
    rcases List.mem_append.mp (show t ∈ d.completed ++ d.running.toList from h) with h | h
    · exact .inl h
    · exact .inr (.inr ⟨rfl, Option.mem_toList.mp h⟩)
  | _ => exact .inl h

theorem Core.hear {e : ServerEvent} (h : Core L v H p d m (e :: D) none) (hn : Now L v) (hm : m = eventSyncs L e) :
    Core L v (H ++ [e]) (e.phase p) (d.hear e) 0 D none := by
  obtain ⟨hsaid, hj, hcount, hcomp⟩ := h
  have old : ∀ t ∈ d.completed, t ∈ v.endedTags := by
    intro t ht
    rcases hcomp t ht with h | ⟨y, -, -, h3, -⟩
    · exact h
    · cases h3
  have goal : DialogueAt L v (e.phase p) (d.hear e) D none → (∀ c, e = .commandReceived c → TagDone v D c.tag) →
      (∀ t, e = .idleDoneReceived → d.running = some t → TagDone v D t) →
      Core L v (H ++ [e]) (e.phase p) (d.hear e) 0 D none := by
    intro h1 h2 h3
    refine ⟨by rw [hsaid, List.append_assoc]; rfl, h1, ?_, ?_⟩
    · rw [saidSyncs_append, saidSyncs_cons, saidSyncs_nil]
      omega
    · intro t ht
      rcases ServerDialogue.hear_completed ht with h | ⟨c, h, rfl⟩ | ⟨h, h'⟩
      · exact .inl (old t h)
      · exact h2 c h
      · exact h3 t h h'
  have opens : Opens v p d (e :: D) → ∀ t, e = .idleDoneReceived → d.running = some t → TagDone v D t := by
    rintro ho t rfl ht
    rcases ho with ⟨-, h2, -⟩ | ⟨h1, t', D', h2, h3, -⟩
    · rw [h2] at ht; cases ht
    · rw [h2] at ht; cases ht; exact .inl h3
  generalize hD : e :: D = D' at hj
  cases hj with
  | fresh h1 h2 =>
    subst hD
    refine goal (.fresh h1 h2.hear) ?_ (opens h2)
    rintro c rfl
    refine .inl (mem_saidBefore ?_)
    rw [← ClientView.said_none h1, hsaid]
    simp
  | @saying D0 x h1 h2 h3 h4 h5 h6 =>
    have hb := Core.before_saying (by rw [hsaid, hD]) h1 h2 h3
    cases D0 with
    | nil =>
      cases hD
      rcases h6 with ⟨h6, h7, -⟩ | ⟨-, _, _, -, -, h6, -⟩
      · rcases hk : x.2.body with ⟨a, b⟩ | _ | _
        · have hk' : x.2.isAuthenticate = true := by simp [Command.isAuthenticate, hk]
          obtain ⟨ca, hca, htag⟩ := Command.event_authenticate hk'
          refine goal ?_ (by rw [hca]; nofun) (by rw [hca]; nofun)
          refine .authTalk x h1 hk' (by rw [hca]; rfl) (by rw [hca, ← htag]; rfl) ?_ ?_ (.inl rfl)
          · rw [hca]; exact Nat.zero_le _
          · rw [hca, h2, h4]; rfl
        · have hk' : x.2.isIdle = true := by simp [Command.isIdle, hk]
          have hca := Command.event_idle hk'
          refine goal ?_ (by rw [hca]; nofun) (by rw [hca]; nofun)
          exact .idlePending x h1 hk' (by rw [hca]; rfl) (by rw [hca]; rfl) h5
        · have hk' : x.2.isRegular = true := by simp [Command.isRegular, hk]
          have hca := Command.event_regular hk'
          refine goal ?_ ?_ (by rw [hca]; nofun)
          · exact .heard x h1 (by rw [hca]; exact h6) (by rw [hca]; exact h7) (.inl hk')
          · intro c hc
            rw [hca] at hc
            cases hc
            exact .inr ⟨x, h1, rfl, rfl, .inl hk'⟩
      · cases h6
    | cons e' D0 =>
      cases hD
      refine goal (.saying x h1 h2 h3 h4 h5 h6.hear) ?_ fun t he ht => ?_
      · rintro c rfl
        refine .inl (mem_saidBefore ?_)
        rw [hb]
        simp
      · subst he
        rcases h6 with ⟨-, h2, -⟩ | ⟨h1, t', D', h2, h3, -⟩
        · rw [h2] at ht; cases ht
        · rw [h2] at ht; cases ht; exact .inl h3
  | authTalk x h1 h2 h3 h4 h5 h6 h7 =>
    rcases h7 with h7 | ⟨a, h7⟩
    · rw [h7] at hD; cases hD
    · rw [h7] at hD; cases hD
      obtain ⟨-, -, -, hask⟩ := hn.of_authenticate h1 h2
      subst h7
      simp only [List.length_singleton] at h6
      refine goal (.authTalk x h1 h2 h3 h4 ?_ ?_ (.inl rfl)) nofun nofun
      · show d.asked - 1 ≤ 1
        omega
      · show d.asked - 1 + v.datas.length = 0 + v.asked
        omega
  | idleDone x h1 h2 h3 h4 h5 =>
    cases hD
    refine goal (.heard x h1 rfl rfl (.inr ⟨h2, h5⟩)) nofun ?_
    intro t _ ht
    rw [h4] at ht
    cases ht
    exact .inr ⟨x, h1, rfl, rfl, .inr ⟨h2, h5⟩⟩
  | _ => cases hD

/-! ### Answers -/

theorem Opens.phase (h : Opens v p d D) : p = .command ∨ p = .idle := by
  rcases h with ⟨h, -⟩ | ⟨h, -⟩
  · exact .inl h
  · exact .inr h

theorem Core.sendContinue (h : Core L v H p d m D fl) (hn : Now L v) (hp : p = .authenticate) (ha : d.asked = 0)
    (q : ContinuationRequest) :
    fl = none ∧ Core L v H p { d with asked := d.asked + 1 } m D (some (.answer (.authenticateContinue q))) := by
  obtain ⟨hsaid, hj, hcount, hcomp⟩ := h
  subst hp
  cases hj with
  | fresh h1 h2 => rcases h2.phase with h | h <;> cases h
  | saying x h1 h2 h3 h4 h5 h6 => rcases h6.phase with h | h <;> cases h
  | authTalk x h1 h2 h3 h4 h5 h6 h7 =>
    obtain ⟨-, -, -, hask⟩ := hn.of_authenticate h1 h2
    have hD : D = [] := List.length_eq_zero_iff.mp (by omega)
    subst hD
    simp only [List.length_nil] at h6
    exact ⟨rfl, hsaid, .authContinue x q h1 h2 rfl h4 (by show d.asked + 1 = 1; omega) (by omega), hcount, hcomp⟩
  | authContinue x q h1 h2 h3 h4 h5 h6 => omega
  | _ => contradiction

theorem Core.sendFinish (h : Core L v H p d m D fl) (hn : Now L v) (hp : p = .authenticate) (ha : d.asked = 0)
    {tag : Tag} (hr : d.running = some tag) (body : StatusBody) :
    fl = none ∧ Core L v H .command { d with running := none } m D
      (some (.answer (.authenticateFinish (.tagged tag body)))) := by
  obtain ⟨hsaid, hj, hcount, hcomp⟩ := h
  subst hp
  cases hj with
  | fresh h1 h2 => rcases h2.phase with h | h <;> cases h
  | saying x h1 h2 h3 h4 h5 h6 => rcases h6.phase with h | h <;> cases h
  | authTalk x h1 h2 h3 h4 h5 h6 h7 =>
    obtain ⟨-, -, -, hask⟩ := hn.of_authenticate h1 h2
    have hD : D = [] := List.length_eq_zero_iff.mp (by omega)
    subst hD
    simp only [List.length_nil] at h6
    rw [hr] at h4
    cases h4
    exact ⟨rfl, hsaid, .authFinish x body h1 h2 rfl rfl (by omega), hcount, hcomp⟩
  | authContinue x q h1 h2 h3 h4 h5 h6 => omega
  | _ => contradiction

theorem Core.sendAccept (h : Core L v H p d m D fl) (hp : p = .idlePending) (q : ContinuationRequest) :
    fl = none ∧ Core L v H .idle d m D (some (.answer (.idleAccept q))) := by
  obtain ⟨hsaid, hj, hcount, hcomp⟩ := h
  subst hp
  cases hj with
  | fresh h1 h2 => rcases h2.phase with h | h <;> cases h
  | saying x h1 h2 h3 h4 h5 h6 => rcases h6.phase with h | h <;> cases h
  | idlePending x h1 h2 h3 h4 h5 => exact ⟨rfl, hsaid, .idleAccept x q h1 h2 rfl h4 h5, hcount, hcomp⟩
  | _ => contradiction

theorem Core.sendReject (h : Core L v H p d m D fl) (hp : p = .idlePending) {tag : Tag} (hr : d.running = some tag)
    (body : StatusBody) : fl = none ∧ Core L v H .command { d with running := none } m D
      (some (.answer (.idleReject (.tagged tag body)))) := by
  obtain ⟨hsaid, hj, hcount, hcomp⟩ := h
  subst hp
  cases hj with
  | fresh h1 h2 => rcases h2.phase with h | h <;> cases h
  | saying x h1 h2 h3 h4 h5 h6 => rcases h6.phase with h | h <;> cases h
  | idlePending x h1 h2 h3 h4 h5 =>
    rw [hr] at h4
    cases h4
    exact ⟨rfl, hsaid, .idleReject x body h1 h2 rfl rfl h5, hcount, hcomp⟩
  | _ => contradiction

/-! ### Literals -/

variable {os : ServerOptions}

theorem Command.literal_regular (hL : L.Lawful) {c : Command} {pre post : List Fragment} {dd : Bytes} {mode : LiteralMode}
    (he : L.encodeCommand c = pre ++ .literal dd mode :: post) : c.isRegular = true := by
  obtain ⟨tag, body⟩ := c
  have no : SingleLine (L.encodeCommand ⟨tag, body⟩) → False := by
    rintro ⟨l, hl, -⟩
    rw [hl] at he
    have : Fragment.literal dd mode ∈ [Fragment.line l] := by rw [he]; simp
    simp at this
  cases body with
  | authenticate a b => exact (no (hL.encodeAuthenticate tag a b)).elim
  | idle => exact (no (hL.encodeIdle tag)).elim
  | other o => rfl

/-- While the acceptance of a literal is on the way, the server does not accept another literal. -/
theorem Core.literal_once (h : Core L v H p d m D (some .literal)) {c : Command} (hL : L.Lawful) {D' : List ServerEvent}
    (hD : D = c.event :: D') (hrt : c.RoundTrip L os) {pre post : List Fragment} {dd : Bytes} {mode : LiteralMode}
    (he : L.encodeCommand c = pre ++ .literal dd mode :: post)
    (hm : m ≤ syncs pre) (hb : ImapFlow.said L H ++ wire pre <+: ImapFlow.said L v.saidBefore ++ v.sent) : False := by
  obtain ⟨hsaid, hj, hcount, hcomp⟩ := h
  cases hj with
  | literal x h1 h2 h3 h4 h5 h6 h7 h8 h9 =>
    have hbef := Core.before_saying (D := []) hsaid h1 h3 h4
    rw [List.append_nil] at hbef
    obtain ⟨pre', d', post', e1, e2, e3⟩ := h9
    have hreg := Command.literal_regular hL he
    have hx : x.2 = c := by
      have := (List.cons.inj hD).1
      rw [Command.event_regular h2, Command.event_regular hreg] at this
      cases this
      rfl
    rw [hx] at e1
    rw [hbef, List.prefix_append_right_inj, e2] at hb
    rw [hbef, e3] at hcount
    simp only [flightLiterals] at hcount
    have hle := hb.length_le
    rcases Nat.lt_or_ge (wire pre).length (wire pre').length with hlt | hge
    · have : syncs pre ≤ syncs pre' := by
        have h2 := he.symm.trans e1
        rcases List.append_eq_append_iff.mp h2 with ⟨r, hr, -⟩ | ⟨r, hr, -⟩
        · rw [hr, syncs_append]; omega
        · rw [hr, wire_append, List.length_append] at hlt; omega
      omega
    · have hw := hb.eq_of_length (by omega)
      rw [CommandEncodes.literal_unique hrt he e1 hw] at hm
      omega

/-- While the acceptance of a literal is on the way, the server does not hear the command. -/
theorem Core.literal_not_heard (h : Core L v H p d m D (some .literal)) {e : ServerEvent} {D' : List ServerEvent}
    (hD : D = e :: D') (hrt : ∀ x, v.current = some x → x.2.RoundTrip L os)
    (hb : ImapFlow.said L H ++ e.bytes L <+: ImapFlow.said L v.saidBefore ++ v.sent) : False := by
  obtain ⟨hsaid, hj, hcount, hcomp⟩ := h
  cases hj with
  | literal x h1 h2 h3 h4 h5 h6 h7 h8 h9 =>
    have hbef := Core.before_saying (D := []) hsaid h1 h3 h4
    rw [List.append_nil] at hbef
    obtain ⟨pre', d', post', e1, e2, e3⟩ := h9
    cases hD
    rw [hbef, List.prefix_append_right_inj, e2, Command.event_bytes, e1, wire_append, wire_cons] at hb
    have hle := hb.length_le
    have := List.length_pos_iff.mpr (CommandEncodes.after (hrt x h1) e1)
    simp only [List.length_append, Fragment.data] at hle this
    omega

/-- The server accepts a literal. -/
theorem Core.acceptLiteral (h : Core L v H p d m D none) (hn : Now L v) (hL : L.Lawful) {c : Command}
    {D' : List ServerEvent} (hp : p = .command) (hD : D = c.event :: D') (hrt : c.RoundTrip L os)
    {pre post : List Fragment} {dd : Bytes} (he : L.encodeCommand c = pre ++ .literal dd .sync :: post) (hm : m ≤ syncs pre)
    (hb : ImapFlow.said L H ++ wire pre <+: ImapFlow.said L v.saidBefore ++ v.sent) :
    Core L v H p d (m + 1) D (some .literal) := by
  obtain ⟨hsaid, hj, hcount, hcomp⟩ := h
  have hreg := Command.literal_regular hL he
  have hev := Command.event_regular hreg
  subst hp
  -- a command that ended has all its literals accepted
  have ended : ∀ D1, v.saidBefore = H ++ c.event :: D1 → False := by
    intro D1 h1
    rw [h1, saidSyncs_append, saidSyncs_cons, hev] at hcount
    simp only [eventSyncs, flightLiterals, he, syncs_append, syncs] at hcount
    omega
  cases hj with
  | fresh h1 h2 =>
    rw [ClientView.said_none h1, hD] at hsaid
    exact (ended _ hsaid).elim
  | @saying D0 x h1 h2 h3 h4 h5 h6 =>
    have hbef := Core.before_saying hsaid h1 h2 h3
    cases D0 with
    | cons e' D0 =>
      cases hD
      exact (ended _ hbef).elim
    | nil =>
      rw [List.append_nil] at hbef
      have h0 : x.2.event = c.event := (List.cons.inj hD).1
      have hx : x.2 = c := by
        rw [hev] at h0
        obtain ⟨hd, tag, body⟩ := x
        cases body <;> simp [Command.event] at h0
        exact h0
      have hxr : x.2.isRegular = true := by rw [hx]; exact hreg
      have hrun : d.running = none := by
        rcases h6 with ⟨-, h6, -⟩ | ⟨h6, -⟩
        · exact h6
        · cases h6
      rw [hbef, List.prefix_append_right_inj] at hb
      rw [hbef] at hcount
      simp only [flightLiterals] at hcount
      have hpend : Pend L v x.2 := by
        rw [hx]
        obtain ⟨q', hq⟩ := ClientView.remaining_of_current h1
        cases hn with
        | fresh h => exact absurd h.1 (ClientView.current_sent h1)
        | regular hd cmd q pre' post' g1 g2 g3 g4 g5 g6 g7 g8 g9 g10 =>
          have := (List.cons.inj (g1.symm.trans hq)).1
          subst this
          have hx : cmd = c := hx
          rw [hx] at g8
          have hle := hb.length_le
          rw [g9] at hle hb
          have hrel : syncs pre' ≤ v.released := by
            rcases g10 with ⟨-, h⟩ | ⟨_, _, -, h | h⟩ <;> omega
          rcases Nat.lt_or_ge (wire pre).length (wire pre').length with hlt | hge
          · have := frag_syncs he g8 hlt
            omega
          · have hw := hb.eq_of_length (by omega)
            rcases g10 with ⟨rfl, -⟩ | ⟨d'', post'', rfl, -⟩
            · exfalso
              rw [List.append_nil] at g8
              have hh : wire (L.encodeCommand c) = wire pre := by rw [g8, hw]
              rw [he, wire_append, wire_cons] at hh
              have := List.length_pos_iff.mpr (CommandEncodes.after hrt he)
              have := congrArg List.length hh
              simp only [List.length_append, Fragment.data] at *
              omega
            · have hpp := CommandEncodes.literal_unique hrt he g8 hw
              subst hpp
              exact ⟨pre, dd, post, he, g9, by omega⟩
        | authenticate hd cmd q ds g1 g2 g3 =>
          have := (List.cons.inj (g1.symm.trans hq)).1
          subst this
          exact (Command.regular_not_authenticate hxr g3).elim
        | idle hd cmd q g1 g2 g3 =>
          have := (List.cons.inj (g1.symm.trans hq)).1
          subst this
          exact (Command.regular_not_idle hxr g3).elim
      refine ⟨hsaid, .literal x h1 hxr h2 h3 h4 h5 rfl hrun hpend, ?_, ?_⟩
      · rw [hbef]
        simp only [flightLiterals]
        omega
      · exact hcomp
  | heard => cases hD
  | authTalk x h1 h2 h3 => cases h3
  | idlePending => cases hD
  | idleOn => cases hD
  | idleDone x h1 h2 h3 => cases h3

end ImapFlow
