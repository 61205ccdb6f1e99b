import Verif.Proofs.ExampleServers

/-!
# What the example programs do with their inputs
-/

namespace ImapFlow

variable {K : Type} {L : Lib}

section
variable {σ S ε ev ι : Type}

theorem programInputs_append (T U : List (ProgramItem ε ev ι)) : programInputs (T ++ U) = programInputs T ++ programInputs U := by
  simp [programInputs]

theorem programInputs_calls (calls : List ι) :
    programInputs (calls.map fun op => (.stream (.stream (.user op)) : ProgramItem ε ev ι)) = [] := by
  unfold programInputs
  rw [List.filterMap_eq_nil_iff]
  intro i hi
  obtain ⟨op, -, rfl⟩ := List.mem_map.1 hi
  rfl

theorem programInputs_plain {J : List (FullItem ε ev ι)} (h : ∀ i ∈ streamPart J, i.Plain) :
    programInputs (J.map ProgramItem.stream) = [] := by
  unfold programInputs
  rw [List.filterMap_eq_nil_iff]
  intro i hi
  obtain ⟨j, hj, rfl⟩ := List.mem_map.1 hi
  unfold ProgramItem.input?
  split
  · rename_i e heq
    cases heq
    have := (h (.returned (.ok e)) (List.mem_filterMap.2 ⟨_, hj, rfl⟩)).1
    cases this
  · rename_i heq; cases heq
  · rfl

theorem programInputs_eventful {J : List (FullItem ε ev ι)} {e : ev} (h : Eventful J e) :
    programInputs (J.map ProgramItem.stream) = [.event e] := by
  obtain ⟨J0, rfl, h1, -⟩ := h
  rw [List.map_append, programInputs_append, programInputs_plain h1]
  rfl

theorem programInputs_dropped {D : List (FullItem ε ev ι)} (h : ∀ i ∈ D, i = .stream .dropped) :
    programInputs (D.map ProgramItem.stream) = [] := by
  unfold programInputs
  rw [List.filterMap_eq_nil_iff]
  intro i hi
  obtain ⟨j, hj, rfl⟩ := List.mem_map.1 hi
  rw [h j hj]
  rfl

/-- The event. -/
def ProgramInput.event? : ProgramInput ev → Option ev
  | .event e => some e
  | .line _ => none

theorem programEvents_inputs (T : List (ProgramItem ε ev ι)) : programEvents T = (programInputs T).filterMap ProgramInput.event? := by
  induction T with
  | nil => rfl
  | cons i T ih =>
    have key : programEvents [i] = (programInputs [i]).filterMap ProgramInput.event? := by
      cases i with
      | stream f =>
        cases f with
        | stream j =>
          cases j with
          | returned r => cases r <;> rfl
          | _ => rfl
        | _ => rfl
      | _ => rfl
    rw [show i :: T = [i] ++ T from rfl, programEvents_append, programInputs_append, List.filterMap_append, ih, key]

theorem programEvents_nil {T : List (ProgramItem ε ev ι)} (h : programInputs T = []) : programEvents T = [] := by
  rw [programEvents_inputs, h]
  rfl

/-- The inputs, the calls and the variables are related. -/
structure Scripted (P : Program σ S ev ι) (first : ev → Prop) (R : List (ProgramInput ev) → List ι → σ → Prop) : Prop where
  start : R [] [] P.start
  event : ∀ {ins cs v s e coin v' s' calls flow}, R ins cs v → (ins = [] → first e) →
    P.event v s e coin = .ok (v', s', calls, flow) → R (ins ++ [.event e]) (cs ++ calls) v'
  line : ∀ {ins cs v s text v' s' calls}, R ins cs v → P.line v s text = some (.ok (v', s', calls)) →
    R (ins ++ [.line text]) (cs ++ calls) v'

theorem Scripted.step {P : Program σ S ev ι} {M : Machine S ε ev ι} {first : ev → Prop}
    {R : List (ProgramInput ev) → List ι → σ → Prop} (hR : Scripted P first R) {v : σ} {c : FullStream K S}
    {x : Running K σ S} {a : ProgramAct} {T : List (ProgramItem ε ev ι)} {ins : List (ProgramInput ev)} {cs : List ι}
    (hJ : ∀ {act : IoAct} {c' J}, c.step M act.toStream = some (c', J) →
      c'.ctl ≠ .at .dead ∧ (Uneventful J ∨ ∃ e, Eventful J e))
    (h : P.step M (.running v c) a = some (x, T)) (hp : NoPanic T) (hr : R ins cs v)
    (hf : ins = [] → ∀ e es, programEvents T = e :: es → first e) :
    ∃ v', R (ins ++ programInputs T) (cs ++ programCalls T) v' ∧ ∀ w d, x = .running w d → w = v' := by
  cases a with
  | io act coin =>
    obtain ⟨c', J, h1, h2⟩ := Program.step_io h
    have same : programInputs (J.map (ProgramItem.stream (ε := ε))) = [] →
        programCalls (J.map (ProgramItem.stream (ε := ε))) = [] → T = J.map .stream →
        R (ins ++ programInputs T) (cs ++ programCalls T) v := by
      rintro h3 h4 rfl
      rw [h3, h4, List.append_nil, List.append_nil]
      exact hr
    obtain ⟨hd, hJ⟩ := hJ h1
    rcases hJ with ⟨h3, h4⟩ | ⟨e, h3⟩
    · have h5 := programInputs_plain h3
      have h6 := (programEvents_plain h3).2
      rcases h2 with ⟨hx, -⟩ | ⟨-, rfl, hT⟩ | ⟨r, hn, rfl, hT⟩
      · exact (hd hx).elim
      · exact ⟨v, same h5 h6 hT, by rintro w d ⟨⟩; rfl⟩
      · cases r with
        | ok e => exact (h4 e hn).elim
        | error e =>
          refine ⟨v, ?_, nofun⟩
          rw [hT, programInputs_append, programCalls_append, h5, h6]
          show R (ins ++ ([] ++ [])) (cs ++ ([] ++ [])) v
          simpa using hr
    · have h5 := programInputs_eventful h3
      have h6 := programEvents_eventful h3
      obtain ⟨-, -, -, h7⟩ := h3
      rcases h2 with ⟨hx, -⟩ | ⟨hn, -⟩ | ⟨r, hn, rfl, hT⟩
      · exact (hd hx).elim
      · rw [h7] at hn; cases hn
      · rw [h7] at hn
        cases hn
        cases h8 : P.event v c'.state e coin with
        | error p =>
          exfalso
          refine hp.1 p ?_
          rw [hT]
          exact List.mem_append_right _ (by simp [Program.resume, h8])
        | ok y =>
          obtain ⟨v', s', calls, flow⟩ := y
          refine ⟨v', ?_, ?_⟩
          · have hr' : (P.resume (ε := ε) v c' coin (.ok e)).2 = calls.map fun op => .stream (.stream (.user op)) := by
              simp only [Program.resume, h8]
              cases flow <;> rfl
            rw [hr'] at hT
            have h9 : programEvents T = [e] := by rw [hT, programEvents_append, h6.1, programEvents_calls]; rfl
            have h10 := hR.event hr (fun hi => hf hi e [] h9) h8
            rw [hT, programInputs_append, programCalls_append, h5, h6.2, programInputs_calls, programCalls_calls]
            simpa using h10
          · intro w d hx
            simp only [Program.resume, h8] at hx
            cases flow with
            | «continue» => cases hx; rfl
            | abort => cases hx
  | line text =>
    obtain ⟨d, D, r, h0, h1, h2⟩ := Program.step_line h
    obtain ⟨-, h4⟩ := FullStream.dropFuture_state h0
    rcases h2 with ⟨p, -, -, rfl⟩ | ⟨v', s', calls, rfl, rfl, rfl⟩
    · exact (hp.1 p (by simp)).elim
    · refine ⟨v', ?_, by rintro w d ⟨⟩; rfl⟩
      have := hR.line hr h1
      rw [programInputs_append, programCalls_append, programInputs_dropped h4, (programEvents_dropped h4).2, programCalls_line,
        programCalls_calls, show ∀ U, programInputs (.line text :: U) = .line text :: programInputs (ε := ε) (ι := ι) U from
          fun _ => rfl, programInputs_calls]
      simpa using this

end

/-- An example client. -/
theorem Scripted.client (hL : L.Lawful) {g : HandleGenerator} {σ : Type} {P : Program σ Client ClientEvent ClientOp}
    {I : σ → List CItem → Prop} {Q : List CItem → Prop} (hk : ClientKept L g P I Q) {first : ClientEvent → Prop}
    {R : List (ProgramInput ClientEvent) → List ClientOp → σ → Prop} (hR : Scripted P first R) {x : Running K σ Client}
    {as : List ProgramAct} {T : List (ProgramItem ClientError ClientEvent ClientOp)}
    (h : P.run (clientMachine L) (Examples.startClient P g) as = some (x, T))
    (hf : ∀ e es, programEvents T = e :: es → first e) :
    ∃ v, R (programInputs T) (programCalls T) v ∧ ∀ w d, x = .running w d → w = v := by
  induction as using snocInduction generalizing x T with
  | nil => cases h; exact ⟨_, hR.start, by rintro w d ⟨⟩; rfl⟩
  | snoc as a ih =>
    obtain ⟨z, T1, T2, h1, h2, rfl⟩ := Program.run_snoc h
    obtain ⟨s0, A0, h3, -⟩ := ClientKept.run hL hk (x := Examples.startClient (K := K) P g)
      (s0 := Client.new g .default) ⟨rfl, rfl, rfl, rfl, hk.start⟩ nofun h1
    obtain ⟨s1, A1, -, h4⟩ := hk.step hL h3 h2
    obtain ⟨v, hv, hz⟩ := ih h1 (fun e es he => hf e (es ++ programEvents T2) (by rw [programEvents_append, he]; rfl))
    obtain ⟨v', c, rfl⟩ := Program.step_running h2
    obtain rfl := hz _ _ rfl
    obtain ⟨ht, -, -, hs, -⟩ := h3
    have hsafe := clientMachine_safe hL g .default
    rw [programInputs_append, programCalls_append]
    refine hR.step (fun {act c' J} hst => ?_) h2 h4.1 hv (fun hi e es he => ?_)
    · have hP : ∃ ops T, (Client.new g .default).trace L ops = .ok (c.state, T) := ⟨_, _, by rw [hs]; exact ht⟩
      obtain ⟨U, -, h5⟩ := client_called hsafe hP (by cases act <;> nofun) hst
      refine ⟨((FullStream.step_cases hst).alive hsafe hP).1, ?_⟩
      rcases h5 with ⟨-, h5⟩ | ⟨-, -, e, -, -, -, h5⟩
      · exact .inl h5
      · exact .inr ⟨e, h5⟩
    · refine hf e es ?_
      rw [programEvents_append, programEvents_nil hi, he]
      rfl

/-- An example server. -/
theorem Scripted.server (hL : L.Lawful) {o : ServerOptions} (hO : ServerOptions.Built L o) {g : HandleGenerator} {gr : Greeting} {σ : Type} {P : Program σ Server ServerEvent ServerOp}
    {I : σ → List SItem → Prop} {Q : List SItem → Prop} (hk : ServerKept L g o gr P I Q) {first : ServerEvent → Prop}
    {R : List (ProgramInput ServerEvent) → List ServerOp → σ → Prop} (hR : Scripted P first R) {x : Running K σ Server}
    {as : List ProgramAct} {T : List (ProgramItem ServerError ServerEvent ServerOp)}
    (h : P.run (serverMachine L) (.running P.start (.insecure (Server.new g o gr))) as = some (x, T))
    (hf : ∀ e es, programEvents T = e :: es → first e) :
    ∃ v, R (programInputs T) (programCalls T) v ∧ ∀ w d, x = .running w d → w = v := by
  induction as using snocInduction generalizing x T with
  | nil => cases h; exact ⟨_, hR.start, by rintro w d ⟨⟩; rfl⟩
  | snoc as a ih =>
    obtain ⟨z, T1, T2, h1, h2, rfl⟩ := Program.run_snoc h
    obtain ⟨s0, A0, h3, -⟩ := ServerKept.run hL hO hk (x := (.running P.start (.insecure (Server.new g o gr)) : Running K σ Server))
      (s0 := Server.new g o gr) ⟨rfl, rfl, rfl, rfl, hk.start⟩ nofun h1
    obtain ⟨s1, A1, -, h4⟩ := hk.step hL hO h3 h2
    obtain ⟨v, hv, hz⟩ := ih h1 (fun e es he => hf e (es ++ programEvents T2) (by rw [programEvents_append, he]; rfl))
    obtain ⟨v', c, rfl⟩ := Program.step_running h2
    obtain rfl := hz _ _ rfl
    obtain ⟨ht, -, -, hs, -⟩ := h3
    have hsafe := serverMachine_safe hL g hO gr
    rw [programInputs_append, programCalls_append]
    refine hR.step (fun {act c' J} hst => ?_) h2 h4.1 hv (fun hi e es he => ?_)
    · have hP : ∃ ops T, (Server.new g o gr).trace L ops = .ok (c.state, T) := ⟨_, _, by rw [hs]; exact ht⟩
      obtain ⟨U, -, h5⟩ := server_called hsafe hP (by cases act <;> nofun) hst
      refine ⟨((FullStream.step_cases hst).alive hsafe hP).1, ?_⟩
      rcases h5 with ⟨-, h5⟩ | ⟨-, -, e, -, -, -, h5⟩
      · exact .inl h5
      · exact .inr ⟨e, h5⟩
    · refine hf e es ?_
      rw [programEvents_append, programEvents_nil hi, he]
      rfl

namespace Examples

/-- `client_idle.rs` calls `set_idle_done` once for each line. -/
theorem clientIdle_script (first : ClientEvent → Prop) : Scripted (clientIdle L) first fun ins cs _ =>
    cs.countP (fun op => op matches .setIdleDone) = ins.countP ProgramInput.isLine where
  start := rfl
  event {ins cs v s e coin v' s' calls flow} h _ he := by
    have : calls.countP (fun op => op matches .setIdleDone) = 0 := by
      unfold clientIdle at he
      dsimp only at he
      split at he <;> split at he <;> cases he <;> rfl
    rw [List.countP_append, List.countP_append, h, this]
    rfl
  line {ins cs v s text v' s' calls} h he := by
    have : calls.countP (fun op => op matches .setIdleDone) = 1 := by
      unfold clientIdle at he
      dsimp only at he
      split at he
      · simp only [Option.some.injEq] at he
        split at he <;> cases he
        rfl
      · cases he
    rw [List.countP_append, List.countP_append, h, this]
    rfl

theorem _root_.ImapFlow.Answered.snoc {asks : List ServerAsk} {ops : List ServerOp} {a : ServerAsk} {op : ServerOp}
    (h : Answered asks ops) (ha : a.Answer op) : Answered (asks ++ [a]) (ops ++ [op]) := by
  refine ⟨by simp [h.1], fun p hp => ?_⟩
  rw [List.zip_append h.1, List.mem_append] at hp
  rcases hp with hp | hp
  · exact h.2 p hp
  · obtain rfl := List.mem_singleton.1 hp
    exact ha

theorem status_eq {kind : StatusKind} {tag : Tag} {text : Text} {st : Status} (h : status L kind tag text = .ok st) :
    st = .tagged tag { kind, code := none, text } := by
  unfold status at h
  split at h <;> cases h
  rfl

theorem request_eq {text : Text} {r : ContinuationRequest} (h : request L text = .ok r) : r = .basic none text := by
  unfold request Lib.ccrBasicFromStr at h
  split at h
  · rename_i q hq
    cases h
    split at hq <;> cases hq
    rfl
  · cases h

/-- What `server_authenticate.rs` does with an event. -/
theorem serverAuthenticate_calls {v v' : AuthServerVars} {s s' : Server} {e : ServerEvent} {coin : Bool} {calls : List ServerOp}
    {flow : ControlFlow} (h : (serverAuthenticate L).event v s e coin = .ok (v', s', calls, flow))
    (hv : v = .greeting → ∃ gr, e = .greetingSent gr) :
    v' ≠ .greeting ∧ ((e.ask? = none ∧ calls = []) ∨ ∃ a op, e.ask? = some a ∧ calls = [op] ∧ a.Answer op) := by
  cases v with
  | greeting => obtain ⟨gr, rfl⟩ := hv rfl; cases h; exact ⟨nofun, .inl ⟨rfl, rfl⟩⟩
  | running current =>
    cases e with
    | commandReceived c =>
      simp only [serverAuthenticate] at h
      split at h
      · cases h
      · rename_i st hst
        cases h
        exact ⟨nofun, .inr ⟨_, _, rfl, rfl, by rw [status_eq hst]; rfl⟩⟩
    | commandAuthenticateReceived c =>
      simp only [serverAuthenticate] at h
      split at h
      · split at h
        · cases h
        · rename_i r hr
          split at h
          · cases h
          · cases h
            exact ⟨nofun, .inr ⟨_, _, rfl, rfl, .inl ⟨_, by rw [request_eq hr]⟩⟩⟩
      · split at h
        · cases h
        · rename_i st hst
          split at h
          · cases h
          · split at h
            · cases h
            · cases h
              exact ⟨nofun, .inr ⟨_, _, rfl, rfl, .inr ⟨_, _, by rw [status_eq hst]⟩⟩⟩
    | authenticateDataReceived d =>
      simp only [serverAuthenticate] at h
      split at h
      · split at h
        · cases h
        · rename_i r hr
          split at h
          · cases h
          · cases h
            exact ⟨nofun, .inr ⟨_, _, rfl, rfl, .inl ⟨_, by rw [request_eq hr]⟩⟩⟩
      · split at h
        · cases h
        · split at h
          · cases h
          · rename_i st hst
            split at h
            · cases h
            · split at h
              · cases h
              · cases h
                exact ⟨nofun, .inr ⟨_, _, rfl, rfl, .inr ⟨_, _, by rw [status_eq hst]⟩⟩⟩
    | _ => cases h; exact ⟨nofun, .inl ⟨rfl, rfl⟩⟩

/-- `server_authenticate.rs` answers everything. -/
theorem serverAuthenticate_script : Scripted (serverAuthenticate L) (fun e => ∃ gr, e = .greetingSent gr) fun ins cs v =>
    Answered ((ins.filterMap ProgramInput.event?).filterMap ServerEvent.ask?) cs ∧ (v = .greeting → ins = []) where
  start := ⟨⟨rfl, nofun⟩, fun _ => rfl⟩
  event {ins cs v s e coin v' s' calls flow} h hf he := by
    obtain ⟨h1, h2⟩ := serverAuthenticate_calls he (fun hv => hf (h.2 hv))
    refine ⟨?_, fun h => (h1 h).elim⟩
    rw [List.filterMap_append, List.filterMap_append]
    rcases h2 with ⟨h3, rfl⟩ | ⟨a, op, h3, rfl, h4⟩
    · simpa [ProgramInput.event?, h3] using h.1
    · simpa [ProgramInput.event?, h3] using h.1.snoc h4
  line _ h := by cases h

theorem idleAnswers_snoc (expunge : Data) (ins : List (ProgramInput ServerEvent)) (i : ProgramInput ServerEvent) :
    idleAnswers expunge (ins ++ [i]) =
      ((idleAnswer expunge (idleAnswers expunge ins).1 i).1,
        (idleAnswers expunge ins).2 ++ (idleAnswer expunge (idleAnswers expunge ins).1 i).2) := by
  simp [idleAnswers, List.foldl_append]

/-- `server_idle.rs` does what it is told to do. -/
theorem serverIdle_script (expunge : Data) : Scripted (serverIdle L expunge) (fun e => ∃ gr, e = .greetingSent gr) fun ins cs v =>
    match v with
    | .greeting => ins = [] ∧ cs = []
    | .running current => idleAnswers expunge ins = (current, cs) where
  start := ⟨rfl, rfl⟩
  event {ins cs v s e coin v' s' calls flow} h hf he := by
    cases v with
    | greeting =>
      obtain ⟨rfl, rfl⟩ := h
      obtain ⟨gr, rfl⟩ := hf rfl
      cases he
      rfl
    | running current =>
      have key : ∃ now, v' = .running now ∧ idleAnswer expunge current (.event e) = (now, calls) := by
        cases e with
        | idleDoneReceived =>
          cases current with
          | none => cases he; exact ⟨_, rfl, rfl⟩
          | some tag =>
            simp only [serverIdle] at he
            split at he
            · cases he
            · rename_i st hst
              cases he
              exact ⟨_, rfl, by rw [status_eq hst]; rfl⟩
        | _ => cases he; exact ⟨_, rfl, rfl⟩
      obtain ⟨now, rfl, h2⟩ := key
      show idleAnswers expunge (ins ++ [_]) = _
      rw [idleAnswers_snoc, show idleAnswers expunge ins = (current, cs) from h, h2]
  line {ins cs v s text v' s' calls} h he := by
    cases v with
    | greeting => cases he
    | running current =>
      have key : v' = .running current ∧ idleAnswer expunge current (.line text) = (current, calls) := by
        simp only [serverIdle, Option.some.injEq] at he
        simp only [idleAnswer, Prod.mk.injEq, true_and]
        split at he
        · rename_i h1
          rw [if_pos h1]
          split at he
          · cases he
          · rename_i r hr
            split at he <;> cases he
            exact ⟨rfl, by rw [request_eq hr]⟩
        · rename_i h1
          rw [if_neg h1]
          split at he
          · rename_i h2
            rw [if_pos h2]
            cases current with
            | none => cases he; exact ⟨rfl, rfl⟩
            | some tag =>
              dsimp only at he
              split at he
              · cases he
              · rename_i st hst
                split at he <;> cases he
                exact ⟨rfl, by rw [status_eq hst]; rfl⟩
          · rename_i h2
            rw [if_neg h2]
            split at he <;> cases he
            · rename_i h3
              rw [if_pos h3]
              exact ⟨rfl, rfl⟩
            · rename_i h3
              rw [if_neg h3]
              exact ⟨rfl, rfl⟩
      obtain ⟨rfl, h2⟩ := key
      show idleAnswers expunge (ins ++ [_]) = _
      rw [idleAnswers_snoc, show idleAnswers expunge ins = (current, cs) from h, h2]

end Examples

end ImapFlow
