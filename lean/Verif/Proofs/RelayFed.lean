import Verif.Proofs.RestDelivered
import Verif.Proofs.ProxyEvents

/-!
# What a client was told to say

Everything the user of a client asked for: the commands that ended, the command in progress, and the commands that
wait for their turn.  The proxy asks for exactly what it has heard.
-/

namespace ImapFlow

variable {L : Lib}

/-- What the user of the client asked for and has not ended. -/
def ClientView.due (v : ClientView) : List ServerEvent :=
  match v.remaining with
  | [] => []
  | x :: q => v.saidNow x ++ q.map fun y => y.2.event

/-- Everything the user of the client asked for. -/
def ClientView.fed (v : ClientView) : List ServerEvent := v.saidBefore ++ v.due

theorem ClientView.due_nil {v : ClientView} (h : v.remaining = []) : v.due = [] := by
  rw [due, h]

theorem ClientView.due_cons {v : ClientView} {x : RawHandle × Command} {q : List (RawHandle × Command)}
    (h : v.remaining = x :: q) : v.due = v.saidNow x ++ q.map fun y => y.2.event := by
  rw [due, h]

theorem ClientView.said_fed (v : ClientView) : v.said <+: v.fed := by
  unfold fed
  cases hc : v.current with
  | none => rw [v.said_none hc]; exact List.prefix_append _ _
  | some x =>
    obtain ⟨q, hq⟩ := ClientView.remaining_of_current hc
    rw [v.said_some hc, due_cons hq, ← List.append_assoc]
    exact List.prefix_append _ _

theorem ClientView.Same.fed {v v' : ClientView} (h : v.Same v') : v'.fed = v.fed := by
  have hn : ∀ x, v'.saidNow x = v.saidNow x := by
    intro x
    rw [ClientView.saidNow, ClientView.saidNow, h.datas, h.doneSet]
  unfold ClientView.fed ClientView.due ClientView.saidBefore
  rw [h.remaining, h.enqueued, h.ended]
  cases v.remaining with
  | nil => rfl
  | cons x q => simp only [hn]

theorem saidNow_fresh {v : ClientView} (h1 : v.datas = []) (h2 : v.doneSet = false) (x : RawHandle × Command) :
    v.saidNow x = [x.2.event] := by
  simp [ClientView.saidNow, h1, h2]

/-- A client without commands has nothing in progress. -/
theorem Now.nothing {v : ClientView} (hn : Now L v) (hr : v.remaining = []) : v.Fresh := by
  cases hn with
  | fresh h => exact h
  | regular _ _ _ _ _ h1 => rw [hr] at h1; cases h1
  | authenticate _ _ _ _ h1 => rw [hr] at h1; cases h1
  | idle _ _ _ h1 => rw [hr] at h1; cases h1

/-- The command in progress is not AUTHENTICATE. -/
theorem Now.unasked {v : ClientView} (hn : Now L v)
    (hr : ∀ x q, v.remaining = x :: q → x.2.isAuthenticate = false) : v.asked = 0 ∧ v.datas = [] := by
  cases hn with
  | fresh h => exact ⟨h.2.2.2.1, h.2.2.2.2.1⟩
  | regular _ _ _ _ _ h1 h2 h3 h4 h5 => exact ⟨h4, h5⟩
  | authenticate _ _ _ _ h1 h2 h3 => have := hr _ _ h1; rw [h3] at this; cases this
  | idle _ _ _ h1 h2 h3 h4 h5 h6 => exact ⟨h5, h6⟩

theorem ClientView.fed_enqueue {v : ClientView} (hn : Now L v) (hle : v.ended.length ≤ v.enqueued.length)
    (h : RawHandle) (c : Command) : (v.observe (.enqueue h c)).fed = v.fed ++ [c.event] := by
  have hrem : (v.observe (.enqueue h c)).remaining = v.remaining ++ [(h, c)] := ClientView.remaining_enqueue hle
  have hb : (v.observe (.enqueue h c)).saidBefore = v.saidBefore := by
    show ((v.enqueued ++ [(h, c)]).zip v.ended).flatMap saidEnded = (v.enqueued.zip v.ended).flatMap saidEnded
    have e2 : (v.enqueued ++ [(h, c)]).zip v.ended = v.enqueued.zip v.ended := by
      rw [List.zip_eq_zip_take_min, List.zip_eq_zip_take_min (l₁ := v.enqueued)]
      rw [List.length_append, Nat.min_eq_right hle, Nat.min_eq_right (by simp; omega),
        List.take_append_of_le_length hle]
    rw [e2]
  unfold fed
  rw [hb, List.append_assoc]
  congr 1
  cases hr : v.remaining with
  | nil =>
    have hf := hn.nothing hr
    rw [hr] at hrem
    have hrem : (v.observe (.enqueue h c)).remaining = (h, c) :: [] := hrem
    rw [due_cons hrem, due_nil hr]
    rw [saidNow_fresh (v := v.observe (.enqueue h c)) hf.2.2.2.2.1 hf.2.2.2.2.2.2]
    rfl
  | cons x q =>
    rw [hr] at hrem
    have hrem : (v.observe (.enqueue h c)).remaining = x :: (q ++ [(h, c)]) := hrem
    rw [due_cons hrem, due_cons hr, List.map_append, List.append_assoc]
    rfl

theorem ClientView.fed_data {v : ClientView} {x : RawHandle × Command} (hr : v.remaining = [x])
    (hd : v.doneSet = false) (a : AuthenticateData) (hd' : RawHandle) :
    (v.observe (.setAuth a (.ok hd'))).fed = v.fed ++ [.authenticateDataReceived a] := by
  have hrem : (v.observe (.setAuth a (.ok hd'))).remaining = [x] := hr
  unfold fed
  rw [due_cons hrem, due_cons hr]
  show v.saidBefore ++ (x.2.event :: (v.datas ++ [a]).map _ ++ (if v.doneSet then _ else _) ++ _) = _
  simp [ClientView.saidNow, hd]

theorem ClientView.fed_done {v : ClientView} {x : RawHandle × Command} (hr : v.remaining = [x])
    (hd : v.doneSet = false) (hd' : RawHandle) :
    (v.observe (.setDone (some hd'))).fed = v.fed ++ [.idleDoneReceived] := by
  have hrem : (v.observe (.setDone (some hd'))).remaining = [x] := hr
  unfold fed
  rw [due_cons hrem, due_cons hr]
  show v.saidBefore ++ (x.2.event :: v.datas.map _ ++ (if true then _ else _) ++ _) = _
  simp [ClientView.saidNow, hd]

theorem ClientView.fed_terminate {v : ClientView} {e : ClientEvent} {x : RawHandle × Command}
    {q : List (RawHandle × Command)} (hr : v.remaining = x :: q)
    (hs : saidEnded (x, ⟨e, v.sent, v.datas⟩) = v.saidNow x) : (v.terminate e).fed = v.fed := by
  have h1 := (ClientView.terminate_before (e := e) hr).1
  have h2 : (v.terminate e).remaining = q := (ClientView.remaining_terminate hr).1
  unfold fed
  rw [h1, hs, due_cons hr, List.append_assoc]
  congr 2
  cases q with
  | nil => rw [due_nil h2]; rfl
  | cons y q => rw [due_cons h2, saidNow_fresh (v := v.terminate e) rfl rfl]; rfl

/-! ## Commands -/

theorem saidEnded_commands (p : (RawHandle × Command) × ClientEnded) :
    (saidEnded p).filterMap ServerEvent.command? = [p.1.2] := by
  unfold saidEnded
  have hd : ∀ ds : List AuthenticateData, (ds.map ServerEvent.authenticateDataReceived).filterMap ServerEvent.command? = [] := by
    intro ds
    rw [List.filterMap_eq_nil_iff]
    intro e he
    obtain ⟨a, -, rfl⟩ := List.mem_map.mp he
    rfl
  rw [List.filterMap_append, List.filterMap_cons_some (Command.event_command _), hd]
  split <;> rfl

theorem saidNow_commands (v : ClientView) (x : RawHandle × Command) :
    (v.saidNow x).filterMap ServerEvent.command? = [x.2] := by
  unfold ClientView.saidNow
  have hd : ∀ ds : List AuthenticateData, (ds.map ServerEvent.authenticateDataReceived).filterMap ServerEvent.command? = [] := by
    intro ds
    rw [List.filterMap_eq_nil_iff]
    intro e he
    obtain ⟨a, -, rfl⟩ := List.mem_map.mp he
    rfl
  rw [List.filterMap_append, List.filterMap_cons_some (Command.event_command _), hd]
  split <;> rfl

theorem events_commands (q : List (RawHandle × Command)) :
    (q.map fun y => y.2.event).filterMap ServerEvent.command? = q.map (·.2) := by
  induction q with
  | nil => rfl
  | cons x q ih => rw [List.map_cons, List.filterMap_cons_some (Command.event_command _), ih]; rfl

/-- The commands among what was asked for are the enqueued commands. -/
theorem ClientView.fed_commands {v : ClientView} (hle : v.ended.length ≤ v.enqueued.length) :
    v.fed.filterMap ServerEvent.command? = v.enqueued.map (·.2) := by
  have hb : ∀ (E : List (RawHandle × Command)) (F : List ClientEnded), F.length ≤ E.length →
      ((E.zip F).flatMap saidEnded).filterMap ServerEvent.command? = (E.take F.length).map (·.2) := by
    intro E F
    induction F generalizing E with
    | nil => intro _; simp
    | cons y F ih =>
      intro h
      cases E with
      | nil => cases h
      | cons x E =>
        rw [List.zip_cons_cons, List.flatMap_cons, List.filterMap_append, saidEnded_commands,
          ih E (by simpa using h)]
        simp
  have hdue : v.due.filterMap ServerEvent.command? = v.remaining.map (·.2) := by
    cases hr : v.remaining with
    | nil => rw [due_nil hr]; rfl
    | cons x q => rw [due_cons hr, List.filterMap_append, saidNow_commands, events_commands]; rfl
  unfold fed
  rw [List.filterMap_append, hdue]
  unfold saidBefore
  rw [hb _ _ hle]
  unfold remaining
  rw [← List.map_append, List.take_append_drop]

/-- The commands among what was said are the first enqueued commands. -/
theorem ClientView.said_commands {v : ClientView} (hle : v.ended.length ≤ v.enqueued.length) :
    v.said.filterMap ServerEvent.command? <+: v.enqueued.map (·.2) := by
  rw [← fed_commands hle]
  exact v.said_fed.filterMap _

/-! ## Completed commands -/

/-- The tag of the last IDLE and the tags of the regular commands and of the IDLE commands ended by DONE, from what
was heard. -/
def completedBy (H : List ServerEvent) : Option Tag × List Tag :=
  H.foldl (fun p e => match e with
    | .commandReceived c => (p.1, p.2 ++ [c.tag])
    | .idleCommandReceived t => (some t, p.2)
    | .idleDoneReceived => (p.1, p.2 ++ p.1.toList)
    | _ => p) (none, [])

theorem completedBy_snoc (H : List ServerEvent) (e : ServerEvent) : completedBy (H ++ [e]) =
    match e with
    | .commandReceived c => ((completedBy H).1, (completedBy H).2 ++ [c.tag])
    | .idleCommandReceived t => (some t, (completedBy H).2)
    | .idleDoneReceived => ((completedBy H).1, (completedBy H).2 ++ (completedBy H).1.toList)
    | _ => completedBy H := by
  unfold completedBy
  rw [List.foldl_append]
  rfl

theorem completedBy_mono {H H' : List ServerEvent} (h : H <+: H') : ∀ t ∈ (completedBy H).2, t ∈ (completedBy H').2 := by
  obtain ⟨D, rfl⟩ := h
  intro t ht
  induction D using snocInduction with
  | nil => rwa [List.append_nil]
  | snoc D e ih =>
    rw [← List.append_assoc, completedBy_snoc]
    cases e <;> first | exact ih | exact List.mem_append_left _ ih

/-- The bookkeeping of the completed commands depends only on what was heard. -/
theorem completed_heard {gs : HandleGenerator} {os : ServerOptions} {gr : Greeting} {sops : List ServerOp} {s : Server}
    {S V : List SItem} (hst : (Server.new gs os gr).trace L sops = .ok (s, S ++ V)) :
    (serverDialogue S).completed = (completedBy (serverHeard S)).2 ∧
    (serverPhase S = .idle ∨ serverPhase S = .idlePending → (serverDialogue S).running = (completedBy (serverHeard S)).1) := by
  induction S using snocInduction generalizing V with
  | nil => exact ⟨rfl, fun h => by rcases h with h | h <;> cases h⟩
  | snoc S i ih =>
    have e : S ++ [i] ++ V = S ++ i :: V := by simp
    rw [e] at hst
    obtain ⟨ih1, ih2⟩ := ih hst
    have hg := Server.trace_guard hst
    have hph := ServerView.of_phase gr S
    rw [serverDialogue_snoc, serverHeard_snoc, serverPhase_snoc]
    cases i with
    | received w ev =>
      obtain ⟨-, -, -, ht, -⟩ := hg
      rw [hph] at ht
      simp only [SItem.heard?, Option.toList_some]
      rw [completedBy_snoc]
      cases hp : serverPhase S with
      | command =>
        rw [hp] at ht
        obtain ⟨⟨t, b⟩, -, rfl⟩ := ht
        cases b with
        | other x => exact ⟨congrArg (· ++ [t]) ih1, fun h => by rcases h with h | h <;> cases h⟩
        | authenticate m ir => exact ⟨ih1, fun h => by rcases h with h | h <;> cases h⟩
        | idle => exact ⟨ih1, fun _ => rfl⟩
      | authenticate =>
        rw [hp] at ht
        obtain ⟨c, -, rfl⟩ := ht
        exact ⟨ih1, fun h => by rcases h with h | h <;> cases h⟩
      | idlePending => rw [hp] at ht; exact ht.elim
      | idle =>
        rw [hp] at ht
        obtain ⟨-, rfl⟩ := ht
        refine ⟨?_, fun h => by rcases h with h | h <;> cases h⟩
        show _ ++ _ = _ ++ _
        rw [ih1, ih2 (.inl hp)]
    | authContinue q r => cases r <;> simp only [SItem.heard?, Option.toList_none, List.append_nil] <;> exact ⟨ih1, ih2⟩
    | authFinish q r =>
      cases r <;> simp only [SItem.heard?, Option.toList_none, List.append_nil]
      · exact ⟨ih1, ih2⟩
      · exact ⟨ih1, fun h => by rcases h with h | h <;> cases h⟩
    | idleAccept q r =>
      cases r <;> simp only [SItem.heard?, Option.toList_none, List.append_nil]
      · exact ⟨ih1, ih2⟩
      · refine ⟨ih1, fun _ => ih2 (.inr ?_)⟩
        rw [← hph]
        rcases hg with ⟨h, -⟩ | ⟨-, h⟩
        · exact h
        · cases h
    | idleReject q r =>
      cases r <;> simp only [SItem.heard?, Option.toList_none, List.append_nil]
      · exact ⟨ih1, ih2⟩
      · exact ⟨ih1, fun h => by rcases h with h | h <;> cases h⟩
    | _ => simp only [SItem.heard?, Option.toList_none, List.append_nil]; exact ⟨ih1, ih2⟩

end ImapFlow
