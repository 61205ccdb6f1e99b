import Verif.Proofs.SessionAuth
import Verif.Props.C66

/-!
# `client_idle.rs` and `server_idle.rs`
-/

namespace ImapFlow

variable {K : Type} {L : Lib} {gc gs : HandleGenerator} {os : ServerOptions} {expunge : Data}

/-! ## What `server_idle.rs` does with one IDLE -/

/-- The message that the program heard. -/
def ProgramInput.heard? : ProgramInput ServerEvent → Option ServerEvent
  | .event e => e.heard?
  | .line _ => none

theorem inputs_heard {ε ι : Type} (T : List (ProgramItem ε ServerEvent ι)) :
    (programInputs T).filterMap ProgramInput.heard? = (programEvents T).filterMap ServerEvent.heard? := by
  rw [programEvents_inputs, List.filterMap_filterMap]
  exact filterMap_congr' fun i _ => by cases i <;> rfl

/-- The answer to DONE. -/
abbrev idleOk (tag : Tag) : Status := .tagged tag { kind := .ok, code := none, text := ascii "..." }

theorem idleAnswers_snoc (ins : List (ProgramInput ServerEvent)) (i : ProgramInput ServerEvent) :
    idleAnswers expunge (ins ++ [i]) = ((idleAnswer expunge (idleAnswers expunge ins).1 i).1,
      (idleAnswers expunge ins).2 ++ (idleAnswer expunge (idleAnswers expunge ins).1 i).2) := by
  unfold idleAnswers
  rw [List.foldl_append]
  rfl

theorem idleAnswers_length (ins : List (ProgramInput ServerEvent)) : (idleAnswers expunge ins).2.length ≤
    ins.countP ProgramInput.isLine + (ins.filterMap ProgramInput.heard?).length := by
  induction ins using snocInduction with
  | nil => exact Nat.zero_le _
  | snoc ins i ih =>
    rw [idleAnswers_snoc, List.length_append, List.countP_append, List.filterMap_append, List.length_append]
    have : (idleAnswer expunge (idleAnswers expunge ins).1 i).2.length ≤
        [i].countP ProgramInput.isLine + ([i].filterMap ProgramInput.heard?).length := by
      generalize (idleAnswers expunge ins).1 = x
      cases i with
      | line text =>
        simp only [idleAnswer]
        repeat' split
        all_goals (try cases x) <;> simp [ProgramInput.isLine]
      | event e => cases e <;> (try cases x) <;> simp [idleAnswer, ProgramInput.heard?, ServerEvent.heard?]
    omega

/-- What the server has told the client after one IDLE was heard. -/
structure IdleTells (expunge : Data) (ins : List (ProgramInput ServerEvent)) : Prop where
  before : ins.filterMap ProgramInput.heard? = [] → (idleAnswers expunge ins).1 = none ∧
    (idleAnswers expunge ins).2.filterMap ServerOp.told? = List.replicate (ins.countP ProgramInput.isExpunge) (.data expunge)
  during : ∀ tag, ins.filterMap ProgramInput.heard? = [.idleCommandReceived tag] → (idleAnswers expunge ins).1 = some tag ∧
    (idleAnswers expunge ins).2.filterMap ServerOp.told? = List.replicate (ins.countP ProgramInput.isExpunge) (.data expunge)
  after : ∀ tag, ins.filterMap ProgramInput.heard? = [.idleCommandReceived tag, .idleDoneReceived] →
    (idleAnswers expunge ins).1 = none ∧ ∃ b, (idleAnswers expunge ins).2.filterMap ServerOp.told? =
      List.replicate ((beforeDone ins).countP ProgramInput.isExpunge) (.data expunge) ++
        .status (idleOk tag) :: List.replicate b (.data expunge)

theorem beforeDone_none {ins : List (ProgramInput ServerEvent)} (h : .idleDoneReceived ∉ ins.filterMap ProgramInput.heard?) :
    beforeDone ins = ins := by
  induction ins with
  | nil => rfl
  | cons i ins ih =>
    have hd : i.isDone = false := by
      cases hd : i.isDone with
      | false => rfl
      | true =>
        unfold ProgramInput.isDone at hd
        split at hd
        · exact (h (List.mem_filterMap.2 ⟨_, List.mem_cons_self, rfl⟩)).elim
        · cases hd
    have h1 : beforeDone (i :: ins) = i :: beforeDone ins := by simp [beforeDone, hd]
    rw [h1, ih fun h2 => h ?_]
    obtain ⟨j, hj, hj'⟩ := List.mem_filterMap.1 h2
    exact List.mem_filterMap.2 ⟨j, List.mem_cons_of_mem _ hj, hj'⟩

theorem beforeDone_some {ins : List (ProgramInput ServerEvent)} (h : .idleDoneReceived ∈ ins.filterMap ProgramInput.heard?)
    (l : List (ProgramInput ServerEvent)) : beforeDone (ins ++ l) = beforeDone ins := by
  induction ins with
  | nil => cases h
  | cons i ins ih =>
    cases hd : i.isDone with
    | true => simp [beforeDone, hd]
    | false =>
      have h1 : ∀ l, beforeDone (i :: l) = i :: beforeDone l := fun l => by simp [beforeDone, hd]
      rw [List.cons_append, h1, h1, ih]
      obtain ⟨j, hj, hj'⟩ := List.mem_filterMap.1 h
      rcases List.mem_cons.1 hj with rfl | hj
      · exfalso
        cases j with
        | line => cases hj'
        | event e => cases e <;> first | (cases hj'; done) | (cases hd; done)
      · exact List.mem_filterMap.2 ⟨j, hj, hj'⟩

theorem idle_tells (expunge : Data) (ins : List (ProgramInput ServerEvent)) : IdleTells expunge ins := by
  induction ins using snocInduction with
  | nil => exact ⟨fun _ => ⟨rfl, rfl⟩, nofun, nofun⟩
  | snoc ins i ih =>
    obtain ⟨h1, h2, h3⟩ := ih
    cases i with
    | line text =>
      have hh : (ins ++ [ProgramInput.line text]).filterMap ProgramInput.heard? = ins.filterMap ProgramInput.heard? := by
        rw [List.filterMap_append]; simp [ProgramInput.heard?]
      have ht : ∀ x, (idleAnswer expunge x (.line text)).2.filterMap ServerOp.told? =
          List.replicate ([ProgramInput.line text].countP ProgramInput.isExpunge) (.data expunge) := by
        intro x
        simp only [idleAnswer]
        split
        · rename_i h; subst h
          rw [show [ProgramInput.line (ascii "ok")].countP ProgramInput.isExpunge = 0 by decide +kernel]; rfl
        · split
          · rename_i h; subst h
            rw [show [ProgramInput.line (ascii "no")].countP ProgramInput.isExpunge = 0 by decide +kernel]
            cases x <;> rfl
          · split
            · rename_i h; subst h
              rw [show [ProgramInput.line (ascii "expunge")].countP ProgramInput.isExpunge = 1 by decide +kernel]
              rfl
            · rename_i h
              simp [ProgramInput.isExpunge, h]
      refine ⟨?_, ?_, ?_⟩ <;> rw [hh, idleAnswers_snoc, List.filterMap_append, ht]
      · intro h
        obtain ⟨g1, g2⟩ := h1 h
        exact ⟨g1, by rw [g2, List.countP_append, List.replicate_append_replicate]⟩
      · intro tag h
        obtain ⟨g1, g2⟩ := h2 tag h
        exact ⟨g1, by rw [g2, List.countP_append, List.replicate_append_replicate]⟩
      · intro tag h
        obtain ⟨g1, b, g3⟩ := h3 tag h
        refine ⟨g1, b + [ProgramInput.line text].countP ProgramInput.isExpunge, ?_⟩
        rw [beforeDone_some (by rw [h]; simp), g3, List.append_assoc, List.cons_append, List.replicate_append_replicate]
    | event e =>
      have hx : (ins ++ [ProgramInput.event e]).countP ProgramInput.isExpunge = ins.countP ProgramInput.isExpunge := by
        simp [List.countP_append, ProgramInput.isExpunge]
      cases he : e.heard? with
      | none =>
        have hh : (ins ++ [ProgramInput.event e]).filterMap ProgramInput.heard? = ins.filterMap ProgramInput.heard? := by
          rw [List.filterMap_append]; simp [ProgramInput.heard?, he]
        have ha : idleAnswers expunge (ins ++ [ProgramInput.event e]) = idleAnswers expunge ins := by
          rw [idleAnswers_snoc]
          cases e <;> first | (cases he; done) | simp [idleAnswer]
        refine ⟨?_, ?_, ?_⟩ <;> rw [hh, ha]
        · rw [hx]; exact h1
        · rw [hx]; exact h2
        · intro tag h
          rw [beforeDone_some (by rw [h]; simp)]
          exact h3 tag h
      | some e' =>
        have : e' = e := by cases e <;> cases he <;> rfl
        subst this
        have hh : (ins ++ [ProgramInput.event e']).filterMap ProgramInput.heard? = ins.filterMap ProgramInput.heard? ++ [e'] := by
          rw [List.filterMap_append]; simp [ProgramInput.heard?, he]
        refine ⟨?_, ?_, ?_⟩ <;> rw [hh, idleAnswers_snoc]
        · intro h; simp at h
        · intro tag h
          rw [show [ServerEvent.idleCommandReceived tag] = [] ++ [.idleCommandReceived tag] from rfl] at h
          obtain ⟨g1, g2⟩ := List.append_inj' h rfl
          cases g2
          obtain ⟨k1, k2⟩ := h1 g1
          exact ⟨rfl, by rw [hx, show (idleAnswer expunge (idleAnswers expunge ins).1 (.event (.idleCommandReceived tag))).2 = [] from rfl,
            List.append_nil, k2]⟩
        · intro tag h
          rw [show [ServerEvent.idleCommandReceived tag, .idleDoneReceived] = [.idleCommandReceived tag] ++ [.idleDoneReceived] from rfl] at h
          obtain ⟨g1, g2⟩ := List.append_inj' h rfl
          cases g2
          obtain ⟨k1, k2⟩ := h2 tag g1
          refine ⟨rfl, 0, ?_⟩
          have hb : beforeDone (ins ++ [.event .idleDoneReceived]) = ins := by
            have h4 := beforeDone_none (ins := ins) (by rw [g1]; simp)
            unfold beforeDone at h4 ⊢
            rw [List.takeWhile_append, h4, if_pos rfl]
            exact List.append_nil _
          rw [List.filterMap_append, k1, k2, hb]
          rfl

/-- The calls of the server for one IDLE. -/
theorem idle_calls {tag : Tag} {ins : List (ProgramInput ServerEvent)}
    (h : ∀ t, .idleCommandReceived t ∈ ins.filterMap ProgramInput.heard? → t = tag) :
    (∀ t, (idleAnswers expunge ins).1 = some t → t = tag) ∧ ∀ op ∈ (idleAnswers expunge ins).2,
      op = .idleAccept (.basic none (ascii "...")) ∨ op = .idleReject (.tagged tag noBody) ∨ op = .enqueueData expunge ∨
      op = .enqueueStatus (idleOk tag) := by
  induction ins using snocInduction with
  | nil => exact ⟨nofun, fun _ h => (List.not_mem_nil h).elim⟩
  | snoc ins i ih =>
    obtain ⟨h1, h2⟩ := ih fun t ht => h t (by rw [List.filterMap_append]; exact List.mem_append_left _ ht)
    rw [idleAnswers_snoc]
    have h3 : ∀ t, i = .event (.idleCommandReceived t) → t = tag := by
      rintro t rfl
      exact h t (by rw [List.filterMap_append]; exact List.mem_append_right _ (by simp [ProgramInput.heard?, ServerEvent.heard?]))
    revert h1
    generalize (idleAnswers expunge ins).1 = x
    intro h1
    refine ⟨?_, fun op hop => (List.mem_append.1 hop).elim (h2 op) ?_⟩
    · cases i with
      | line text => exact h1
      | event e =>
        cases e with
        | idleCommandReceived t => intro t' ht; cases ht; exact h3 t rfl
        | idleDoneReceived => exact nofun
        | _ => exact h1
    · cases i with
      | line text =>
        simp only [idleAnswer]
        split
        · intro hm; exact .inl (List.mem_singleton.1 hm)
        · split
          · cases x with
            | none => intro hm; cases hm
            | some t => intro hm; rw [h1 t rfl] at hm; exact .inr (.inl (List.mem_singleton.1 hm))
          · split
            · intro hm; exact .inr (.inr (.inl (List.mem_singleton.1 hm)))
            · intro hm; cases hm
      | event e =>
        cases e with
        | idleDoneReceived =>
          cases x with
          | none => intro hm; cases hm
          | some t => intro hm; rw [h1 t rfl] at hm; exact .inr (.inr (.inr (List.mem_singleton.1 hm)))
        | _ => intro hm; cases hm

/-! ## The server and one IDLE -/

/-- The phase of the server, the answers and the tags that it may use, when it has heard at most one IDLE and DONE. -/
structure IdleStage (H : List ServerEvent) (p : ServerPhase) (X : List Answer) (completed : List Tag) : Prop where
  before : H = [] → completed = [] ∧ p = .command ∧ X = []
  during : ∀ tag, H = [.idleCommandReceived tag] → completed = [] ∧
    ((p = .idlePending ∧ X = []) ∨ (p = .idle ∧ ∃ q, X = [.idleAccept q]) ∨ p = .command ∧ ∃ st, X = [.idleReject st])
  after : ∀ tag, H = [.idleCommandReceived tag, .idleDoneReceived] → p = .command ∧ ∃ q, X = [.idleAccept q]

theorem idle_stage {gr : Greeting} {ops : List ServerOp} {z : Server} {S B : List SItem}
    (h : (Server.new gs os gr).trace L ops = .ok (z, S ++ B)) :
    IdleStage (serverHeard S) (serverPhase S) (serverAnswers S) (serverDialogue S).completed := by
  induction S using snocInduction generalizing B with
  | nil => exact ⟨fun _ => ⟨rfl, rfl, rfl⟩, nofun, nofun⟩
  | snoc S i ih =>
    rw [List.append_assoc] at h
    obtain ⟨h1, h2, h3⟩ := ih h
    have hg := Server.trace_guard (T2 := B) h
    have hph : (ServerView.of gr S).phase = serverPhase S := ServerView.of_phase gr S
    rw [serverHeard_snoc, serverPhase_snoc, serverAnswers_snoc, serverDialogue_snoc]
    have same : i.heard? = none → i.phase (serverPhase S) = serverPhase S → i.answer? = none →
        ((serverDialogue S).observe i).completed = (serverDialogue S).completed →
        IdleStage (serverHeard S ++ i.heard?.toList) (i.phase (serverPhase S)) (serverAnswers S ++ i.answer?.toList)
          ((serverDialogue S).observe i).completed := by
      intro e1 e2 e3 e4
      rw [e1, e2, e3, e4]
      simpa using (⟨h1, h2, h3⟩ : IdleStage _ _ _ _)
    have auth : serverPhase S = .authenticate → ∀ {p X C}, IdleStage (serverHeard S ++ []) p X C := by
      intro hp p X C
      rw [List.append_nil]
      refine ⟨fun h => ?_, fun t h => ?_, fun t h => ?_⟩
      · rw [(h1 h).2.1] at hp; cases hp
      · rcases (h2 t h).2 with ⟨h, -⟩ | ⟨h, -⟩ | ⟨h, -⟩ <;> rw [h] at hp <;> cases hp
      · rw [(h3 t h).1] at hp; cases hp
    have pending : serverPhase S = .idlePending → (serverHeard S = [] → False) ∧
        (∀ t, serverHeard S = [.idleCommandReceived t] → (serverDialogue S).completed = [] ∧ serverAnswers S = []) ∧
        ∀ t, serverHeard S = [.idleCommandReceived t, .idleDoneReceived] → False := by
      intro hp
      refine ⟨fun h => ?_, fun t h => ?_, fun t h => ?_⟩
      · rw [(h1 h).2.1] at hp; cases hp
      · obtain ⟨hc, ⟨-, h⟩ | ⟨h, -⟩ | ⟨h, -⟩⟩ := h2 t h
        · exact ⟨hc, h⟩
        · rw [h] at hp; cases hp
        · rw [h] at hp; cases hp
      · rw [(h3 t h).1] at hp; cases hp
    cases i with
    | enqueue hd r => exact same rfl rfl rfl rfl
    | input b => exact same rfl rfl rfl rfl
    | output b => exact same rfl rfl rfl rfl
    | sent e => exact same rfl rfl rfl rfl
    | quiet => exact same rfl rfl rfl rfl
    | literal a b => exact same rfl rfl rfl rfl
    | failed a b => exact same rfl rfl rfl rfl
    | starved => exact same rfl rfl rfl rfl
    | authContinue q r =>
      cases r with
      | error => exact same rfl rfl rfl rfl
      | ok hd =>
        rcases hg with ⟨hp, -⟩ | ⟨-, hp⟩
        · exact auth (hph.symm.trans hp)
        · cases hp
    | authFinish q r =>
      cases r with
      | error => exact same rfl rfl rfl rfl
      | ok hd =>
        rcases hg with ⟨hp, -⟩ | ⟨-, hp⟩
        · exact auth (hph.symm.trans hp)
        · cases hp
    | idleAccept q r =>
      cases r with
      | error => exact same rfl rfl rfl rfl
      | ok hd =>
        rcases hg with ⟨hp, -⟩ | ⟨-, hp⟩
        · obtain ⟨g1, g2, g3⟩ := pending (hph.symm.trans hp)
          show IdleStage (serverHeard S ++ []) .idle (serverAnswers S ++ [.idleAccept q]) (serverDialogue S).completed
          rw [List.append_nil]
          refine ⟨fun h => (g1 h).elim, fun t h => ?_, fun t h => (g3 t h).elim⟩
          obtain ⟨k1, k2⟩ := g2 t h
          exact ⟨k1, .inr (.inl ⟨rfl, q, by rw [k2]; rfl⟩)⟩
        · cases hp
    | idleReject q r =>
      cases r with
      | error => exact same rfl rfl rfl rfl
      | ok hd =>
        rcases hg with ⟨hp, -⟩ | ⟨-, hp⟩
        · obtain ⟨g1, g2, g3⟩ := pending (hph.symm.trans hp)
          show IdleStage (serverHeard S ++ []) .command (serverAnswers S ++ [.idleReject q]) (serverDialogue S).completed
          rw [List.append_nil]
          refine ⟨fun h => (g1 h).elim, fun t h => ?_, fun t h => (g3 t h).elim⟩
          obtain ⟨k1, k2⟩ := g2 t h
          exact ⟨k1, .inr (.inr ⟨rfl, q, by rw [k2]; rfl⟩)⟩
        · cases hp
    | received w e =>
      show IdleStage (serverHeard S ++ [e]) (e.phase (serverPhase S)) (serverAnswers S ++ [])
        ((serverDialogue S).observe (.received w e)).completed
      rw [List.append_nil]
      refine ⟨fun hH => by simp at hH, fun t hH => ?_, fun t hH => ?_⟩
      · obtain ⟨g1, g2⟩ := List.append_inj' (show serverHeard S ++ [e] = [] ++ [.idleCommandReceived t] from hH) rfl
        cases g2
        obtain ⟨k1, -, k3⟩ := h1 g1
        exact ⟨k1, .inl ⟨rfl, k3⟩⟩
      · obtain ⟨g1, g2⟩ := List.append_inj' (show serverHeard S ++ [e] = [.idleCommandReceived t] ++ [.idleDoneReceived] from hH) rfl
        cases g2
        refine ⟨rfl, ?_⟩
        have hp : serverPhase S = .idle := by
          rw [← hph]
          rcases Server.event_cases (i := .received w .idleDoneReceived) rfl h with ⟨gr', h4, -⟩ | ⟨hd, r, h4, -⟩ | ⟨w, c, h4, -⟩ |
            ⟨w, d, h4, -⟩ | ⟨w, -, -, h5⟩
          · cases h4
          · cases h4
          · exact absurd h4 (by obtain ⟨t, b⟩ := c; cases b <;> simp [Command.event])
          · cases h4
          · exact h5
        rcases (h2 t g1).2 with ⟨h, -⟩ | ⟨-, h⟩ | ⟨h, -⟩
        · rw [h] at hp; cases hp
        · exact h
        · rw [h] at hp; cases hp

/-! ## The programs fit together -/

/-- What is known of `server_idle.rs`. -/
abbrev IdleServer (L : Lib) (expunge : Data) (w : Examples.IdleServerVars) (B : List SItem) : Prop :=
  Examples.IdleServerInv idleGreeting w B ∧ Shapely (Words L idleBodies [ascii "..."] [expunge]) B

theorem IdleInv.speaks {v : Examples.IdleVars} {A : List CItem} (h : Examples.IdleInv v A) : Speaks [Examples.idleCommand] [] A := by
  obtain ⟨h1, -, h2⟩ := h
  have e : (clientGist A).enqueued = clientEnqueued A := (ClientView.of_fields A).2.2.1
  refine ⟨?_, by rw [h1]; exact fun _ h => (List.not_mem_nil h).elim⟩
  rw [← e]
  cases v with
  | greeting => exact .inl h2.2.1
  | idling => obtain ⟨-, -, ⟨hd, h3⟩, -⟩ := h2; exact .inr ⟨_, h3, List.mem_singleton.2 rfl⟩
  | ending => obtain ⟨-, ⟨hd, h3, -⟩, -⟩ := h2; exact .inr ⟨_, h3, List.mem_singleton.2 rfl⟩

theorem IdleOver.speaks {A : List CItem} (h : Examples.IdleOver A) : Speaks [Examples.idleCommand] [] A := by
  obtain ⟨A', i, body, rfl, hi, h⟩ := h
  obtain ⟨h1, h2⟩ := IdleInv.speaks h
  refine ⟨by rw [clientEnqueued_event hi]; exact h1, ?_⟩
  rw [List.filterMap_append, List.filterMap_cons, data_event hi]
  simpa using h2

theorem idle_fitting (hL : L.Lawful) (hE : L.Exemplary) (ho : ServerOptions.default L = .ok os)
    (hc : Conversant L os Examples.serverIdleText [Examples.idleCommand] [] (ascii "A1") idleBodies [ascii "..."] [expunge]) :
    Fitting L gc gs os idleGreeting (Examples.clientIdle L) (Examples.serverIdle L expunge) Examples.IdleInv
      Examples.IdleOver (IdleServer L expunge) (Saying [Examples.idleCommand]) :=
  hc.fitting hL ho (Examples.clientIdle_kept hL gc) (Examples.serverIdle_kept hL (.default ho) hE expunge)
    (Examples.serverIdle_shaped expunge) (fun c h => by rw [List.mem_singleton.1 h]; rfl) IdleInv.speaks IdleOver.speaks fun h => h.1

/-! ## What the client has said -/

theorem ClientView.current_of_done {v : ClientView} (h : v.remaining = []) : v.current = none := by
  unfold ClientView.current
  rw [h]
  split <;> rfl

/-- What the client has said when its IDLE has ended. -/
theorem idle_said_ended {A : List CItem} {hd : RawHandle} {e : ClientEvent} (h1 : (clientGist A).enqueued = [(hd, Examples.idleCommand)])
    (h2 : (clientGist A).ended = [e]) (h3 : A.filterMap CItem.data? = []) : (ClientView.of A).current = none ∧
    (ClientView.of A).said = .idleCommandReceived (ascii "A1") :: if e = .idleDoneSent hd then [.idleDoneReceived] else [] := by
  have g1 : (ClientView.of A).enqueued = [(hd, Examples.idleCommand)] := h1
  have g2 : (ClientView.of A).ended.map ClientEnded.event = [e] := h2
  obtain ⟨en, hen, hene⟩ : ∃ en, (ClientView.of A).ended = [en] ∧ en.event = e := by
    cases hx : (ClientView.of A).ended with
    | nil => rw [hx] at g2; cases g2
    | cons en rest =>
      rw [hx] at g2
      simp only [List.map_cons, List.cons.injEq, List.map_eq_nil_iff] at g2
      exact ⟨en, by rw [g2.2], g2.1⟩
  have hc : (ClientView.of A).current = none := ClientView.current_of_done (by rw [ClientView.remaining, g1, hen]; rfl)
  have hd0 := ClientView.of_datas A
  rw [h3, hen] at hd0
  have hend : en.datas = [] := by
    have := (List.append_eq_nil_iff.1 hd0).1
    simpa using this
  refine ⟨hc, ?_⟩
  unfold ClientView.said
  rw [hc, g1, hen]
  simp only [List.zip_cons_cons, List.zip_nil_right, List.flatMap_cons, List.flatMap_nil, saidEnded, hene, hend]
  simp [Examples.idleCommand, Command.event]

/-- What the client has said when its IDLE is running. -/
theorem idle_said_now {A : List CItem} {hd : RawHandle} {x : RawHandle × Command}
    (h1 : (clientGist A).enqueued = [(hd, Examples.idleCommand)]) (h2 : (clientGist A).ended = []) (h3 : (clientGist A).datas = [])
    (hx : (ClientView.of A).current = some x) :
    (ClientView.of A).said = .idleCommandReceived (ascii "A1") :: if (ClientView.of A).doneSet then [.idleDoneReceived] else [] := by
  have g1 : (ClientView.of A).enqueued = [(hd, Examples.idleCommand)] := h1
  have g2 : (ClientView.of A).ended = [] := List.map_eq_nil_iff.1 h2
  have g3 : (ClientView.of A).datas = [] := h3
  obtain ⟨q, hq⟩ := ClientView.remaining_of_current hx
  rw [ClientView.remaining, g1, g2] at hq
  cases hq
  unfold ClientView.said
  rw [hx, g2]
  simp only [List.zip_nil_right, List.flatMap_nil, List.nil_append, ClientView.saidNow, g3]
  rfl

/-- The answers are given with calls. -/
theorem answers_calls' {S : List SItem} {a : Answer} (h : a ∈ serverAnswers S) : a.op ∈ S.filterMap SItem.op? := by
  obtain ⟨i, hi, ha⟩ := List.mem_filterMap.1 h
  refine List.mem_filterMap.2 ⟨i, hi, ?_⟩
  cases i with
  | authContinue q r => cases r <;> cases ha; rfl
  | authFinish q r => cases r <;> cases ha; rfl
  | idleAccept q r => cases r <;> cases ha; rfl
  | idleReject q r => cases r <;> cases ha; rfl
  | _ => cases ha

section
variable {s : Session K Examples.IdleVars Examples.IdleServerVars} {R : List SessionItem} {v : Examples.IdleVars}
  {c : FullStream K Client} {w : Examples.IdleServerVars} {d : FullStream K Server} {G : List StreamNetItem} {n : Net} {T : List NItem}
  {as : List SessionAct}

/-- What the server has done when it has heard this. -/
theorem idle_server (hE : L.Exemplary)
    (hf : Fitting L gc gs os idleGreeting (Examples.clientIdle L) (Examples.serverIdle L expunge) Examples.IdleInv
      Examples.IdleOver (IdleServer L expunge) (Saying [Examples.idleCommand]))
    (hr : SessionRuns L gc gs Examples.serverIdleText (Examples.clientIdle L) (Examples.serverIdle L expunge) as s R)
    (hob : Observed R T) {z : List ServerEvent}
    (hz : serverHeard (serverItems T) = .idleCommandReceived (ascii "A1") :: z) (hz' : ∀ t, .idleCommandReceived t ∉ z) :
    (serverItems T).filterMap SItem.op? = (idleAnswers expunge (programInputs (sessionServer R))).2 ∧
    (programInputs (sessionServer R)).filterMap ProgramInput.heard? = .idleCommandReceived (ascii "A1") :: z ∧
    (∀ q, .idleAccept q ∈ serverAnswers (serverItems T) → q = .basic none (ascii "...")) ∧
    ∀ st, .idleReject st ∈ serverAnswers (serverItems T) → st = .tagged (ascii "A1") noBody := by
  have h1 : (serverItems T).filterMap SItem.op? = (idleAnswers expunge (programInputs (sessionServer R))).2 := by
    rw [← hob.serverCalls]
    exact (C67_idle hf.lawful hE hr.server).2.2.2.1
  have h2 : (programInputs (sessionServer R)).filterMap ProgramInput.heard? = .idleCommandReceived (ascii "A1") :: z := by
    rw [inputs_heard, hob.heard, hz]
  have h3 := (idle_calls (expunge := expunge) (tag := ascii "A1") (ins := programInputs (sessionServer R)) (by
    rw [h2]
    intro t ht
    rcases List.mem_cons.1 ht with ht | ht
    · cases ht; rfl
    · exact (hz' t ht).elim)).2
  rw [← h1] at h3
  refine ⟨h1, h2, fun q hq => ?_, fun st hst => ?_⟩
  · rcases h3 _ (answers_calls' hq) with h | h | h | h <;> cases h; rfl
  · rcases h3 _ (answers_calls' hst) with h | h | h | h <;> cases h; rfl

theorem replicate_snoc_prefix {α : Type} {X : List α} {x y z : α} {a b : Nat}
    (h : X ++ [y] <+: List.replicate a x ++ z :: List.replicate b x) (hy : y ≠ x) : X = List.replicate a x ∧ y = z := by
  induction a generalizing X with
  | zero =>
    obtain ⟨r, hr⟩ := h
    cases X with
    | nil => cases hr; exact ⟨rfl, rfl⟩
    | cons u X =>
      simp only [List.cons_append, List.append_assoc, List.replicate_zero, List.nil_append, List.cons.injEq] at hr
      have : y ∈ List.replicate b x := by rw [← hr.2]; simp
      exact (hy (List.eq_of_mem_replicate this)).elim
  | succ a ih =>
    rw [List.replicate_succ, List.cons_append] at h
    cases X with
    | nil =>
      obtain ⟨r, hr⟩ := h
      cases hr
      exact (hy rfl).elim
    | cons u X =>
      obtain ⟨rfl, h⟩ := List.cons_prefix_cons.1 h
      obtain ⟨h1, h2⟩ := ih h
      exact ⟨by rw [h1, List.replicate_succ], h2⟩

theorem mem_afterIdle {E1 E2 : List ClientEvent} {e x : ClientEvent} (he : e ∈ E1) (hi : e.endsIdle = true) :
    x ∈ afterIdle (E1 ++ x :: E2) := by
  induction E1 with
  | nil => cases he
  | cons y E1 ih =>
    cases hy : y.endsIdle with
    | true => simp [afterIdle, hy]
    | false =>
      have : afterIdle (y :: (E1 ++ x :: E2)) = afterIdle (E1 ++ x :: E2) := by simp [afterIdle, hy]
      rw [List.cons_append, this]
      refine ih ((List.mem_cons.1 he).resolve_left ?_)
      rintro rfl
      rw [hi] at hy
      cases hy

/-- What happened when both programs wait. -/
theorem idle_rest (hE : L.Exemplary)
    (hf : Fitting L gc gs os idleGreeting (Examples.clientIdle L) (Examples.serverIdle L expunge) Examples.IdleInv
      Examples.IdleOver (IdleServer L expunge) (Saying [Examples.idleCommand]))
    (hr : SessionRuns L gc gs Examples.serverIdleText (Examples.clientIdle L) (Examples.serverIdle L expunge) as s R)
    (h : Live L gc gs os idleGreeting Examples.IdleInv (IdleServer L expunge) s R v c w d G n T) (hw : s.Waits) :
    (programEvents (sessionServer R)).filterMap ServerEvent.heard? = [.idleCommandReceived (ascii "A1")] ∧
    (programEvents (sessionClient R)).filterMap ClientEvent.told? =
      List.replicate ((programInputs (sessionServer R)).countP ProgramInput.isExpunge) (.data expunge) ∧
    ((programEvents (sessionClient R)).filterMap ClientEvent.answer? = [] ∨
     (programEvents (sessionClient R)).filterMap ClientEvent.answer? = [.idleAccept (.basic none (ascii "..."))] ∨
     (programEvents (sessionClient R)).filterMap ClientEvent.answer? = [.idleReject (.tagged (ascii "A1") noBody)]) := by
  have hob := h.link.observed hf.lawful hf.built
  have hl := Net.run_linked h.link.net
  obtain ⟨cops, hct⟩ := hl.client
  obtain ⟨sops, hst⟩ := hl.server
  obtain ⟨⟨A, hA⟩, ⟨B, hB⟩, h1, h2, hrt, hheard, hans, hturn⟩ := h.waits hf hw
  have hgr := h.greeted hf hw
  have hinv := h.inv
  have htold := hl.told_starved hf.lawful hf.built hrt hf.size (hf.fair h.inv) (hf.orderly h.inv') hA hB h1 h2
  rw [SItem.told_op] at htold
  have hstage := idle_stage (gs := gs) (os := os) (gr := idleGreeting) (S := serverItems T) (B := []) (by simpa using hst)
  -- IDLE was said, but not DONE
  have hsaid : serverHeard (serverItems T) = [.idleCommandReceived (ascii "A1")] := by
    rw [hheard]
    obtain ⟨hdata, hdatas, hinv⟩ := hinv
    cases v with
    | greeting =>
      have : (clientGist (clientItems T)).greeted = true := hgr
      rw [hinv.1] at this
      cases this
    | idling =>
      obtain ⟨-, hend, ⟨hd, hen⟩, -⟩ := hinv
      have hend' : (ClientView.of (clientItems T)).ended = [] := List.map_eq_nil_iff.1 hend
      have hen' : (ClientView.of (clientItems T)).enqueued = [(hd, Examples.idleCommand)] := hen
      have hcur : ∀ x, (ClientView.of (clientItems T)).current = some x → x = (hd, Examples.idleCommand) := by
        intro x hx
        obtain ⟨q, hq⟩ := ClientView.remaining_of_current hx
        rw [ClientView.remaining, hen', hend'] at hq
        cases hq
        rfl
      cases hturn with
      | idle a b => rw [ClientView.remaining, hen', hend'] at b; cases b
      | authenticateServer h' c' a b => cases hcur _ a; cases b
      | authenticateClient h' c' a b => cases hcur _ a; cases b
      | idleServer h' c' a b hp =>
        have hs := idle_said_now hen hend hdatas a
        cases hdone : (ClientView.of (clientItems T)).doneSet with
        | false => rw [hs, hdone]; rfl
        | true =>
          rw [hdone] at hs
          rw [hheard] at hstage
          rw [(hstage.after _ hs).1] at hp
          cases hp
      | idleClient h' c' a b hp hrun hacc hdone => rw [idle_said_now hen hend hdatas a, hdone]; rfl
    | ending =>
      obtain ⟨-, ⟨hd, hen, hend⟩, -, hit⟩ := hinv
      rcases hend with ⟨st, hend⟩ | hend
      · rw [(idle_said_ended hen hend hdata).2]; simp
      · exfalso
        have hs := (idle_said_ended hen hend hdata).2
        rw [if_pos rfl] at hs
        rw [hs] at hheard
        obtain ⟨k1, k2, -⟩ := idle_server hE hf hr hob hheard (by simp)
        obtain ⟨-, b, k3⟩ := (idle_tells expunge (programInputs (sessionServer R))).after _ k2
        rw [k1, k3] at htold
        have hm : Response.status (idleOk (ascii "A1")) ∈ (programEvents (sessionClient R)).filterMap ClientEvent.told? := by
          rw [hob.told, htold]; simp
        obtain ⟨x, hx, hxt⟩ := List.mem_filterMap.1 hm
        have : x = .statusReceived (idleOk (ascii "A1")) := by
          cases x <;> first | (cases hxt; rfl) | cases hxt
        subst this
        obtain ⟨E1, E2, hE12⟩ := List.append_of_mem hx
        obtain ⟨hd', cmd, m1, m2, e, m3, m4, m5⟩ := hl.status_reports hf.lawful hf.built hrt hf.size (hf.fair h.inv) (hf.orderly h.inv')
          (hob.clientEvents.symm.trans hE12)
        have hee : e = .idleDoneSent hd := by
          have : e ∈ (programEvents (sessionClient R)).filter ClientEvent.isTerminal :=
            List.mem_filter.2 ⟨by rw [hE12]; exact List.mem_append_left _ m3, m4⟩
          rw [hob.terminals, ← (ClientView.of_fields (clientItems T)).2.2.2.1,
            show (ClientView.of (clientItems T)).ended.map ClientEnded.event = [.idleDoneSent hd] from hend] at this
          exact List.mem_singleton.1 this
        subst hee
        refine hit.after { kind := .ok, code := none, text := ascii "..." } ?_
        rw [← hob.clientEvents, hE12]
        exact mem_afterIdle m3 rfl
  obtain ⟨k1, k2, k3, k4⟩ := idle_server hE hf hr hob hsaid (by simp)
  obtain ⟨-, k5⟩ := (idle_tells expunge (programInputs (sessionServer R))).during _ k2
  refine ⟨by rw [hob.heard, hsaid], by rw [hob.told, htold, k1, k5], ?_⟩
  rw [hob.answers, hans]
  rcases (hstage.during _ hsaid).2 with ⟨-, h⟩ | ⟨-, q, h⟩ | ⟨-, st, h⟩
  · exact .inl h
  · exact .inr (.inl (by rw [h, ← k3 q (by rw [h]; simp)]))
  · exact .inr (.inr (by rw [h, ← k4 st (by rw [h]; simp)]))

/-- What happened when the client has ended. -/
theorem idle_over (hE : L.Exemplary)
    (hf : Fitting L gc gs os idleGreeting (Examples.clientIdle L) (Examples.serverIdle L expunge) Examples.IdleInv
      Examples.IdleOver (IdleServer L expunge) (Saying [Examples.idleCommand]))
    (hr : SessionRuns L gc gs Examples.serverIdleText (Examples.clientIdle L) (Examples.serverIdle L expunge) as s R)
    (h : Ended L gc gs os idleGreeting Examples.IdleOver (IdleServer L expunge) s R c w d G n T) :
    (programEvents (sessionServer R)).filterMap ServerEvent.heard? = [.idleCommandReceived (ascii "A1"), .idleDoneReceived] ∧
    (programEvents (sessionClient R)).filterMap ClientEvent.answer? = [.idleAccept (.basic none (ascii "..."))] ∧
    (programEvents (sessionClient R)).filterMap ClientEvent.told? =
      List.replicate ((beforeDone (programInputs (sessionServer R))).countP ProgramInput.isExpunge) (.data expunge) ++
        [.status (idleOk (ascii "A1"))] := by
  have hob := h.link.observed hf.lawful hf.built
  have hl := Net.run_linked h.link.net
  obtain ⟨cops, hct⟩ := hl.client
  obtain ⟨sops, hst⟩ := hl.server
  obtain ⟨D, fl, ht⟩ := h.together hf
  have hrt := Net.Linked.understood hf.lawful hf.built hf.size h.link.net h.clear (hf.ended h.inv) (hf.orderly h.inv')
  have hstage := idle_stage (gs := gs) (os := os) (gr := idleGreeting) (S := serverItems T) (B := []) (by simpa using hst)
  obtain ⟨A', i, body, hA, hi, hdata, hdatas, -, ⟨hd, hen, hend⟩, -⟩ := h.inv
  have hg : clientGist (clientItems T) = clientGist A' := by rw [hA, clientGist_event hi]; rfl
  have hdata' : (clientItems T).filterMap CItem.data? = [] := by
    rw [hA, List.filterMap_append, List.filterMap_cons, data_event hi, hdata]; rfl
  rw [← hg] at hen hend
  obtain ⟨e, hend, hrd⟩ : ∃ e, (clientGist (clientItems T)).ended = [e] ∧ ((∃ st, e = .idleRejected hd st) ∨ e = .idleDoneSent hd) := by
    rcases hend with ⟨st, h⟩ | h
    · exact ⟨_, h, .inl ⟨st, rfl⟩⟩
    · exact ⟨_, h, .inr rfl⟩
  obtain ⟨hcur, hsaid⟩ := idle_said_ended hen hend hdata'
  have hfl : fl = none := by
    cases ht.core.joint with
    | literal x h => rw [hcur] at h; cases h
    | authContinue x q h => rw [hcur] at h; cases h
    | authFinish x b h => rw [hcur] at h; cases h
    | idleAccept x q h => rw [hcur] at h; cases h
    | idleReject x b h => rw [hcur] at h; cases h
    | _ => rfl
  subst hfl
  have hans : serverAnswers (serverItems T) = clientAnswers (clientItems T) := by
    rw [ht.answers]; simp [flightAnswers]
  have hops : (serverItems T).filterMap SItem.op? = (idleAnswers expunge (programInputs (sessionServer R))).2 := by
    rw [← hob.serverCalls]
    exact (C67_idle hf.lawful hE hr.server).2.2.2.1
  -- the client was told what the server has said
  have htold : (clientItems T).filterMap CItem.told? <+:
      (idleAnswers expunge (programInputs (sessionServer R))).2.filterMap ServerOp.told? := by
    rw [hl.told hf.lawful hf.built hrt hf.size (hf.ended h.inv) (hf.orderly h.inv') (P := T) (Q := []) (by simp), ← hops,
      ← SItem.told_op, ← serverLog_told (gr := idleGreeting)]
    exact (List.take_prefix _ _).filterMap _
  obtain ⟨X, hlast⟩ : ∃ X, (clientItems T).filterMap CItem.told? = X ++ [.status (.tagged (ascii "A1") body)] := by
    rw [← hob.told, hob.clientEvents, hA, List.filterMap_append, List.filterMap_append]
    exact ⟨(A'.filterMap CItem.event?).filterMap ClientEvent.told?, by simp [hi, ClientEvent.told?, Examples.idleCommand]⟩
  rw [hlast] at htold
  have hmem : Response.status (.tagged (ascii "A1") body) ∈
      (idleAnswers expunge (programInputs (sessionServer R))).2.filterMap ServerOp.told? :=
    htold.subset (by simp)
  have htells := idle_tells expunge (programInputs (sessionServer R))
  have hin : (programInputs (sessionServer R)).filterMap ProgramInput.heard? = serverHeard (serverItems T) := by
    rw [inputs_heard, hob.heard]
  have hheard : serverHeard (serverItems T) = [.idleCommandReceived (ascii "A1"), .idleDoneReceived] := by
    have h1 : serverHeard (serverItems T) <+: [.idleCommandReceived (ascii "A1"), .idleDoneReceived] := by
      have h2 : serverHeard (serverItems T) <+: (ClientView.of (clientItems T)).said := ⟨D, ht.core.said.symm⟩
      rw [hsaid] at h2
      refine h2.trans ?_
      split
      · exact List.prefix_refl _
      · exact ⟨[.idleDoneReceived], rfl⟩
    rcases List.prefix_cons_iff.1 h1 with h2 | ⟨t, h2, h3⟩
    · rw [(htells.before (hin.trans h2)).2] at hmem
      cases List.eq_of_mem_replicate hmem
    · rcases List.prefix_cons_iff.1 h3 with h4 | ⟨u, h4, h5⟩
      · rw [h4] at h2
        rw [(htells.during _ (hin.trans h2)).2] at hmem
        cases List.eq_of_mem_replicate hmem
      · rw [h2, h4, List.prefix_nil.1 h5]
  obtain ⟨k1, k2, k3, -⟩ := idle_server hE hf hr hob hheard (by simp)
  obtain ⟨-, b, k5⟩ := htells.after _ k2
  rw [k5] at htold
  obtain ⟨hX, hb⟩ := replicate_snoc_prefix htold nofun
  obtain ⟨-, q, hq⟩ := hstage.after _ hheard
  refine ⟨by rw [hob.heard, hheard], ?_, by rw [hob.told, hlast, hX, hb]⟩
  rw [hob.answers, ← hans, hq, ← k3 q (by rw [hq]; simp)]

/-- How many calls there are. -/
theorem idle_bound (hE : L.Exemplary)
    (hf : Fitting L gc gs os idleGreeting (Examples.clientIdle L) (Examples.serverIdle L expunge) Examples.IdleInv
      Examples.IdleOver (IdleServer L expunge) (Saying [Examples.idleCommand]))
    (hr : SessionRuns L gc gs Examples.serverIdleText (Examples.clientIdle L) (Examples.serverIdle L expunge) as s R)
    (h : Live L gc gs os idleGreeting Examples.IdleInv (IdleServer L expunge) s R v c w d G n T) :
    (programCalls (sessionClient R)).length + (programCalls (sessionServer R)).length ≤
      3 + (programInputs (sessionClient R)).countP ProgramInput.isLine +
        (programInputs (sessionServer R)).countP ProgramInput.isLine := by
  have hob := h.link.observed hf.lawful hf.built
  obtain ⟨D, fl, ht⟩ := h.together hf
  have h1 : (programCalls (sessionClient R)).length ≤ 1 + (programInputs (sessionClient R)).countP ProgramInput.isLine := by
    rw [(C66_idle hf.lawful hr.client).2.2.1]
    split
    · exact Nat.zero_le _
    · simp only [List.length_cons, List.length_replicate]
      omega
  have h2 : (programCalls (sessionServer R)).length ≤ (programInputs (sessionServer R)).countP ProgramInput.isLine +
      (serverHeard (serverItems T)).length := by
    rw [(C67_idle hf.lawful hE hr.server).2.2.2.1, ← hob.heard, ← inputs_heard]
    exact idleAnswers_length _
  have h3 : (serverHeard (serverItems T)).length ≤ 2 := by
    have h4 : (clientEnqueued (clientItems T)).length ≤ 1 ∧ (clientItems T).filterMap CItem.data? = [] := by
      obtain ⟨h5, -, h6⟩ := h.inv
      rw [← (ClientView.of_fields (clientItems T)).2.2.1]
      show (clientGist (clientItems T)).enqueued.length ≤ 1 ∧ _
      refine ⟨?_, h5⟩
      cases v with
      | greeting => rw [h6.2.1]; exact Nat.zero_le _
      | idling => obtain ⟨-, -, ⟨hd, h7⟩, -⟩ := h6; rw [h7]; exact Nat.le_refl _
      | ending => obtain ⟨-, ⟨hd, h7, -⟩, -⟩ := h6; rw [h7]; exact Nat.le_refl _
    have h5 := ClientView.said_length (clientItems T)
    rw [h4.2, ht.core.said, List.length_append, List.length_nil] at h5
    omega
  omega

end

/-! ## Lines -/

theorem Program.step_lines {σ S ε ev ι : Type} {P : Program σ S ev ι} {M : Machine S ε ev ι} {x y : Running K σ S} {act : IoAct}
    {coin : Bool} {items : List (ProgramItem ε ev ι)} (h : P.step M x (.io act coin) = some (y, items)) :
    (programInputs items).countP ProgramInput.isLine = 0 := by
  have stream : ∀ l : List (FullItem ε ev ι), (programInputs (l.map ProgramItem.stream)).countP ProgramInput.isLine = 0 := by
    intro l
    refine List.countP_eq_zero.2 fun j hj => ?_
    obtain ⟨i, hi, hij⟩ := List.mem_filterMap.1 hj
    obtain ⟨k, -, rfl⟩ := List.mem_map.1 hi
    unfold ProgramItem.input? at hij
    split at hij <;> cases hij
    · simp [ProgramInput.isLine]
    · rename_i h; cases h
  cases x with
  | over => cases h
  | dead => cases h
  | running v st =>
    simp only [Program.step] at h
    split at h
    · cases h
    · rename_i st' its hs
      split at h
      · cases h; exact stream its
      · split at h
        · cases h; exact stream its
        · rename_i r hr
          cases h
          rw [programInputs_append, List.countP_append, stream, Nat.zero_add]
          have calls : ∀ l : List ι, (programInputs (l.map fun op => (ProgramItem.stream (.stream (.user op)) :
              ProgramItem ε ev ι))).countP ProgramInput.isLine = 0 := by
            intro l
            have := stream (l.map fun op => .stream (.user op))
            rw [List.map_map] at this
            exact this
          unfold Program.resume
          split
          · rfl
          · split
            · rfl
            · exact calls _
            · exact calls _

/-- How many lines were entered. -/
def sessionLines (R : List SessionItem) : Nat :=
  (programInputs (sessionClient R)).countP ProgramInput.isLine + (programInputs (sessionServer R)).countP ProgramInput.isLine

theorem sessionLines_append (R R' : List SessionItem) : sessionLines (R ++ R') = sessionLines R + sessionLines R' := by
  unfold sessionLines
  rw [sessionClient_append, sessionServer_append, programInputs_append, programInputs_append, List.countP_append, List.countP_append]
  omega

theorem Session.step_lines {σ τ : Type} {P : Program σ Client ClientEvent ClientOp} {P' : Program τ Server ServerEvent ServerOp}
    {s s' : Session K σ τ} {a : SessionAct} {R' : List SessionItem} (h : s.step L P P' a = some (s', R'))
    (ha : ∀ text, a ≠ .clientLine text ∧ a ≠ .serverLine text) : sessionLines R' = 0 := by
  cases a with
  | client act =>
    simp only [Session.step] at h
    split at h
    · obtain ⟨x, items, h1, rfl, rfl⟩ := Session.clientDoes_cases h
      unfold sessionLines
      rw [(sessionClient_client items).1, (sessionClient_client items).2, Program.step_lines h1]
      rfl
    · cases h
  | server act coin =>
    simp only [Session.step] at h
    split at h
    · obtain ⟨x, items, h1, rfl, rfl⟩ := Session.serverDoes_cases h
      unfold sessionLines
      rw [(sessionServer_server items).1, (sessionServer_server items).2, Program.step_lines h1]
      rfl
    · cases h
  | clientLine text => exact ((ha text).1 rfl).elim
  | serverLine text => exact ((ha text).2 rfl).elim

end ImapFlow
