import Verif.Spec.Examples
import Verif.Proofs.RelayCoupled
import Verif.Proofs.ClientInv
import Verif.Proofs.RelaySteps
import Verif.Proofs.StreamCalls

/-!
# Steps of the example programs, and invariants of their variables
-/

namespace ImapFlow

variable {K : Type} {L : Lib}

/-! ## Steps -/

namespace Program

variable {σ S ε ev ι : Type} {P : Program σ S ev ι} {M : Machine S ε ev ι} {v : σ} {c : FullStream K S}
  {x : Running K σ S} {T : List (ProgramItem ε ev ι)}

/-- A step on the connection. -/
theorem step_io {act : IoAct} {coin : Bool} (h : P.step M (.running v c) (.io act coin) = some (x, T)) :
    ∃ c' I, c.step M act.toStream = some (c', I) ∧
      ((c'.ctl = .at .dead ∧ x = .dead ∧ T = I.map .stream) ∨
       (nextResult I = none ∧ x = .running v c' ∧ T = I.map .stream) ∨
       ∃ r, nextResult I = some r ∧ x = (P.resume v c' coin r).1 ∧ T = I.map .stream ++ (P.resume v c' coin r).2) := by
  simp only [Program.step] at h
  split at h
  · cases h
  · rename_i c' I hs
    refine ⟨c', I, hs, ?_⟩
    split at h
    · cases h; exact .inl ⟨by assumption, rfl, rfl⟩
    · split at h
      · rename_i hn; cases h; exact .inr (.inl ⟨hn, rfl, rfl⟩)
      · rename_i r hn; cases h; exact .inr (.inr ⟨r, hn, rfl, rfl⟩)

/-- A line is entered. -/
theorem step_line {text : Bytes} (h : P.step M (.running v c) (.line text) = some (x, T)) :
    ∃ (d : FullStream K S) (D : List (FullItem ε ev ι)) (r : Except Panic (σ × S × List ι)), c.dropFuture = (d, D) ∧
      P.line v d.state text = some r ∧
      ((∃ p, r = .error p ∧ x = .dead ∧ T = D.map .stream ++ [.line text, .panicked p]) ∨
       ∃ v' s calls, r = .ok (v', s, calls) ∧ x = .running v' { d with state := s } ∧
        T = D.map .stream ++ .line text :: calls.map fun op => .stream (.stream (.user op))) := by
  simp only [Program.step] at h
  split at h
  · cases h
  · rename_i p hp; cases h; exact ⟨_, _, _, rfl, hp, .inl ⟨p, rfl, rfl, rfl⟩⟩
  · rename_i v' s calls hp; cases h; exact ⟨_, _, _, rfl, hp, .inr ⟨_, _, _, rfl, rfl, rfl⟩⟩

theorem step_running {x x' : Running K σ S} {a : ProgramAct} (h : P.step M x a = some (x', T)) : ∃ v c, x = .running v c := by
  cases x with
  | running v c => exact ⟨v, c, rfl⟩
  | over => cases h
  | dead => cases h

theorem run_append {x : Running K σ S} {as bs : List ProgramAct} :
    P.run M x (as ++ bs) =
      match P.run M x as with
      | none => none
      | some (y, T) =>
        match P.run M y bs with
        | none => none
        | some (z, U) => some (z, T ++ U) := by
  induction as generalizing x with
  | nil => simp only [List.nil_append, run]; split <;> simp_all
  | cons a as ih =>
    simp only [List.cons_append, run]
    cases P.step M x a with
    | none => rfl
    | some y =>
      obtain ⟨y, I⟩ := y
      simp only [ih]
      cases P.run M y as with
      | none => rfl
      | some z =>
        obtain ⟨z, U⟩ := z
        simp only
        cases P.run M z bs with
        | none => rfl
        | some w => simp [List.append_assoc]

theorem run_snoc {x z : Running K σ S} {as : List ProgramAct} {a : ProgramAct} (h : P.run M x (as ++ [a]) = some (z, T)) :
    ∃ y T1 T2, P.run M x as = some (y, T1) ∧ P.step M y a = some (z, T2) ∧ T = T1 ++ T2 := by
  rw [run_append] at h
  cases h1 : P.run M x as with
  | none => rw [h1] at h; cases h
  | some y =>
    obtain ⟨y, T1⟩ := y
    rw [h1] at h
    simp only [run] at h
    cases h2 : P.step M y a with
    | none => rw [h2] at h; cases h
    | some z' =>
      obtain ⟨z', T2⟩ := z'
      rw [h2] at h
      simp only [List.append_nil, Option.some.injEq, Prod.mk.injEq] at h
      exact ⟨y, T1, T2, rfl, by rw [h2, h.1], h.2.symm⟩

end Program

theorem FullStream.dropFuture_state {σ ε ev ι : Type} {c d : FullStream K σ} {D : List (FullItem ε ev ι)}
    (h : c.dropFuture = (d, D)) : d.state = c.state ∧ ∀ i ∈ D, i = .stream .dropped := by
  unfold FullStream.dropFuture at h
  split at h <;> cases h <;> simp

/-! ## Projections -/

section
variable {ε ev ι : Type}

theorem programStream_append (T U : List (ProgramItem ε ev ι)) :
    programStream (T ++ U) = programStream T ++ programStream U := by
  simp [programStream, streamPart]

theorem programStream_items (I : List (FullItem ε ev ι)) : programStream (I.map ProgramItem.stream) = streamPart I := by
  unfold programStream
  rw [List.filterMap_map]
  congr 1
  exact List.filterMap_some

theorem programStream_calls (calls : List ι) :
    programStream (calls.map fun op => (.stream (.stream (.user op)) : ProgramItem ε ev ι)) = calls.map .user := by
  induction calls with
  | nil => rfl
  | cons op calls ih =>
    rw [List.map_cons, show ∀ x, (x :: calls.map fun op => (.stream (.stream (.user op)) : ProgramItem ε ev ι)) = [x] ++ _ from
      fun _ => rfl, programStream_append, ih]
    rfl

theorem programStream_dropped {D : List (FullItem ε ev ι)} (h : ∀ i ∈ D, i = .stream .dropped) :
    ∀ i ∈ programStream (D.map ProgramItem.stream), i = .dropped := by
  rw [programStream_items]
  intro i hi
  obtain ⟨j, hj, hji⟩ := List.mem_filterMap.1 hi
  rw [h j hj] at hji
  cases hji
  rfl

end

section
variable {ε ev ι : Type}

theorem programEvents_append (T U : List (ProgramItem ε ev ι)) : programEvents (T ++ U) = programEvents T ++ programEvents U := by
  simp [programEvents, streamEvents, programStream_append]

theorem programCalls_append (T U : List (ProgramItem ε ev ι)) : programCalls (T ++ U) = programCalls T ++ programCalls U := by
  simp [programCalls, streamCalls, programStream_append]

theorem programEvents_calls (calls : List ι) :
    programEvents (calls.map fun op => (.stream (.stream (.user op)) : ProgramItem ε ev ι)) = [] := by
  unfold programEvents streamEvents
  rw [programStream_calls, List.filterMap_eq_nil_iff]
  intro i hi
  obtain ⟨op, -, rfl⟩ := List.mem_map.1 hi
  rfl

theorem programCalls_calls (calls : List ι) :
    programCalls (calls.map fun op => (.stream (.stream (.user op)) : ProgramItem ε ev ι)) = calls := by
  unfold programCalls streamCalls
  rw [programStream_calls, List.filterMap_map]
  exact List.filterMap_some

theorem programStream_line (text : Bytes) (T : List (ProgramItem ε ev ι)) : programStream (.line text :: T) = programStream T := rfl

theorem programEvents_line (text : Bytes) (T : List (ProgramItem ε ev ι)) : programEvents (.line text :: T) = programEvents T := rfl

theorem programCalls_line (text : Bytes) (T : List (ProgramItem ε ev ι)) : programCalls (.line text :: T) = programCalls T := rfl

theorem programEvents_plain {J : List (FullItem ε ev ι)} (h : ∀ i ∈ streamPart J, i.Plain) :
    programEvents (J.map ProgramItem.stream) = [] ∧ programCalls (J.map ProgramItem.stream) = [] := by
  unfold programEvents programCalls streamEvents streamCalls
  rw [programStream_items, List.filterMap_eq_nil_iff, List.filterMap_eq_nil_iff]
  exact ⟨fun i hi => (h i hi).1, fun i hi => (h i hi).2⟩

theorem programEvents_eventful {J : List (FullItem ε ev ι)} {e : ev} (h : Eventful J e) :
    programEvents (J.map ProgramItem.stream) = [e] ∧ programCalls (J.map ProgramItem.stream) = [] := by
  obtain ⟨J0, rfl, h1, -⟩ := h
  rw [List.map_append, programEvents_append, programCalls_append, (programEvents_plain h1).1, (programEvents_plain h1).2]
  exact ⟨rfl, rfl⟩

theorem programEvents_dropped {D : List (FullItem ε ev ι)} (h : ∀ i ∈ D, i = .stream .dropped) :
    programEvents (D.map ProgramItem.stream) = [] ∧ programCalls (D.map ProgramItem.stream) = [] := by
  apply programEvents_plain
  rw [← programStream_items]
  intro i hi
  rw [programStream_dropped h i hi]
  exact ⟨rfl, rfl⟩

end

theorem CItem.silent_items {U : List CItem} (h : ∀ i ∈ U, i.Silent) : U.filterMap CItem.event? = [] ∧ U.filterMap CItem.op? = [] := by
  rw [List.filterMap_eq_nil_iff, List.filterMap_eq_nil_iff]
  constructor <;> intro i hi <;> have := h i hi <;> cases i <;> first | rfl | exact this.elim

theorem SItem.silent_items {U : List SItem} (h : ∀ i ∈ U, i.Silent) : U.filterMap SItem.event? = [] ∧ U.filterMap SItem.op? = [] := by
  rw [List.filterMap_eq_nil_iff, List.filterMap_eq_nil_iff]
  constructor <;> intro i hi <;> have := h i hi <;> cases i <;> first | rfl | exact this.elim

theorem CItem.event_items {U : List CItem} {i : CItem} {e : ClientEvent} (h : ∀ i ∈ U, i.Silent) (hi : i.event? = some e) :
    (U ++ [i]).filterMap CItem.event? = [e] ∧ (U ++ [i]).filterMap CItem.op? = [] := by
  simp only [List.filterMap_append, (silent_items h).1, (silent_items h).2, List.filterMap_cons, hi]
  refine ⟨rfl, ?_⟩
  cases i <;> first | rfl | cases hi

theorem SItem.event_items {U : List SItem} {i : SItem} {e : ServerEvent} (h : ∀ i ∈ U, i.Silent) (hi : i.event? = some e) :
    (U ++ [i]).filterMap SItem.event? = [e] ∧ (U ++ [i]).filterMap SItem.op? = [] := by
  simp only [List.filterMap_append, (silent_items h).1, (silent_items h).2, List.filterMap_cons, hi]
  refine ⟨rfl, ?_⟩
  cases i <;> first | rfl | cases hi

theorem clientOps_calls (calls : List ClientOp) : clientOps (calls.map .user) = calls := by
  induction calls with
  | nil => rfl
  | cons op calls ih => simpa [clientOps] using ih

theorem serverOps_calls (calls : List ServerOp) : serverOps (calls.map .user) = calls := by
  induction calls with
  | nil => rfl
  | cons op calls ih => simpa [serverOps] using ih

theorem clientOps_dropped {S : List (StreamItem ClientError ClientEvent ClientOp)} (h : ∀ i ∈ S, i = .dropped) :
    clientOps S = [] := by
  unfold clientOps
  rw [List.filterMap_eq_nil_iff]
  intro i hi
  rw [h i hi]

theorem serverOps_dropped {S : List (StreamItem ServerError ServerEvent ServerOp)} (h : ∀ i ∈ S, i = .dropped) :
    serverOps S = [] := by
  unfold serverOps
  rw [List.filterMap_eq_nil_iff]
  intro i hi
  rw [h i hi]

/-! ## Panics -/

theorem noPanic_append {ε ev ι : Type} {T U : List (ProgramItem ε ev ι)} : NoPanic (T ++ U) ↔ NoPanic T ∧ NoPanic U := by
  simp only [NoPanic, List.mem_append, not_or]
  exact ⟨fun ⟨a, b⟩ => ⟨⟨fun p => (a p).1, fun p => (b p).1⟩, fun p => (a p).2, fun p => (b p).2⟩,
    fun ⟨⟨a, b⟩, c, d⟩ => ⟨fun p => ⟨a p, c p⟩, fun p => ⟨b p, d p⟩⟩⟩

theorem noPanic_items {ε ev ι : Type} {I : List (FullItem ε ev ι)} (h : ∀ p, .stream (.panicked p) ∉ I) :
    NoPanic (I.map ProgramItem.stream) := by
  constructor
  · intro p hm; obtain ⟨i, -, hi⟩ := List.mem_map.1 hm; cases hi
  · intro p hm
    obtain ⟨i, h1, hi⟩ := List.mem_map.1 hm
    cases hi
    exact h p h1

theorem noPanic_calls {ε ev ι : Type} (calls : List ι) :
    NoPanic (calls.map fun op => (.stream (.stream (.user op)) : ProgramItem ε ev ι)) := by
  constructor
  · intro p hm; obtain ⟨i, -, hi⟩ := List.mem_map.1 hm; cases hi
  · intro p hm; obtain ⟨i, -, hi⟩ := List.mem_map.1 hm; cases hi

theorem noPanic_line {ε ev ι : Type} {text : Bytes} {T : List (ProgramItem ε ev ι)} (h : NoPanic T) :
    NoPanic (.line text :: T) := by
  constructor <;> intro p hm <;> rcases List.mem_cons.1 hm with hm | hm
  · cases hm
  · exact h.1 p hm
  · cases hm
  · exact h.2 p hm

/-! ## Clients -/

section
variable {σ : Type}

/-- At most one call of the user. -/
structure Client.Calls (L : Lib) (c : Client) (calls : List ClientOp) (c' : Client) (J : List CItem) : Prop where
  trace : c.trace L calls = .ok (c', J)
  one : calls = [] ∨ ∃ op : ClientOp, calls = [op] ∧ op.Allowed

theorem Client.Calls.items {c c' : Client} {calls : List ClientOp} {J : List CItem} (h : c.Calls L calls c' J) :
    J.filterMap CItem.event? = [] ∧ J.filterMap CItem.op? = calls := by
  obtain ⟨h1, rfl | ⟨op, rfl, h2, h3⟩⟩ := h
  · cases h1; exact ⟨rfl, rfl⟩
  · simp only [Client.trace] at h1
    split at h1
    · cases h1
    · rename_i c1 J1 h4
      cases h1
      cases op <;> first | exact (h2 rfl).elim | exact (h3 _ rfl).elim | (
        simp only [Client.callTrace, Except.map] at h4
        first | (cases h4; exact ⟨rfl, rfl⟩) | (split at h4 <;> cases h4; exact ⟨rfl, rfl⟩))

/-- The property `I` of the variables and the trace holds whenever the program awaits something, and `Q` holds of the trace
when the program has ended. -/
structure ClientKept (L : Lib) (g : HandleGenerator) (P : Program σ Client ClientEvent ClientOp)
    (I : σ → List CItem → Prop) (Q : List CItem → Prop) : Prop where
  start : I P.start []
  silent : ∀ {v A i B ops c}, I v A → i.Silent → (Client.new g .default).trace L ops = .ok (c, A ++ i :: B) → I v (A ++ [i])
  event : ∀ {v A i e ops c} (coin : Bool), I v A → i.event? = some e →
    (Client.new g .default).trace L ops = .ok (c, A ++ [i]) →
    ∃ v' c' calls flow J, P.event v c e coin = .ok (v', c', calls, flow) ∧ c.Calls L calls c' J ∧
      (flow = .continue → I v' (A ++ i :: J)) ∧ (flow = .abort → Q (A ++ i :: J))
  line : ∀ {v A ops c text x}, I v A → (Client.new g .default).trace L ops = .ok (c, A) → P.line v c text = some x →
    ∃ v' c' calls J, x = .ok (v', c', calls) ∧ c.Calls L calls c' J ∧ I v' (A ++ J)

theorem ClientKept.silents {g : HandleGenerator} {P : Program σ Client ClientEvent ClientOp} {I : σ → List CItem → Prop}
    {Q : List CItem → Prop} (hk : ClientKept L g P I Q) {v : σ} {A U B : List CItem} {ops : List ClientOp} {c : Client}
    (hI : I v A) (hU : ∀ i ∈ U, i.Silent) (h : (Client.new g .default).trace L ops = .ok (c, A ++ U ++ B)) : I v (A ++ U) := by
  induction U generalizing A with
  | nil => simpa using hI
  | cons i U ih =>
    have h1 := hk.silent (B := U ++ B) hI (hU i (by simp)) (by simpa using h)
    have h2 := ih h1 (fun j hj => hU j (by simp [hj])) (by simpa using h)
    simpa using h2

/-- What holds of the program after the items `T`: `A` is the trace of the client. -/
structure ClientKept.At (L : Lib) (g : HandleGenerator) (I : σ → List CItem → Prop) (Q : List CItem → Prop)
    (T : List (ProgramItem ClientError ClientEvent ClientOp)) (x : Running K σ Client) (c : Client) (A : List CItem) : Prop where
  trace : (Client.new g .default).trace L (clientOps (programStream T)) = .ok (c, A)
  events : A.filterMap CItem.event? = programEvents T
  calls : A.filterMap CItem.op? = programCalls T
  kept : match x with
    | .running v s => s.state = c ∧ I v A
    | .over => Q A
    | .dead => ∃ v, I v A

theorem ClientKept.step (hL : L.Lawful) {g : HandleGenerator} {P : Program σ Client ClientEvent ClientOp}
    {I : σ → List CItem → Prop} {Q : List CItem → Prop} (hk : ClientKept L g P I Q) {x y : Running K σ Client}
    {a : ProgramAct} {T0 T : List (ProgramItem ClientError ClientEvent ClientOp)} {s0 : Client} {A : List CItem}
    (hx : ClientKept.At L g I Q T0 x s0 A) (h : P.step (clientMachine L) x a = some (y, T)) :
    ∃ s' U, ClientKept.At L g I Q (T0 ++ T) y s' (A ++ U) ∧ y.Stands T := by
  obtain ⟨v, c, rfl⟩ := Program.step_running h
  obtain ⟨ht, he, hc, rfl, hI⟩ := hx
  have hsafe := clientMachine_safe hL g .default
  cases a with
  | io act coin =>
    obtain ⟨c', J, h1, h2⟩ := Program.step_io h
    have hs := (FullStream.step_cases h1).alive hsafe ⟨_, A, ht⟩
    obtain ⟨U, h3, h4⟩ := client_called hsafe ⟨_, A, ht⟩ (by cases act <;> nofun) h1
    have ht' := Client.trace_join ht h3
    have eo : clientOps (programStream (T0 ++ J.map .stream)) = clientOps (programStream T0) ++ clientOps (streamPart J) := by
      rw [programStream_append, clientOps_append, programStream_items]
    have hp := noPanic_items hs.2
    have nf : ¬ ∃ e, .nextFailed e ∈ J.map ProgramItem.stream := by
      rintro ⟨e, hm⟩
      obtain ⟨i, -, hi⟩ := List.mem_map.1 hm
      cases hi
    rcases h2 with ⟨hd, -, -⟩ | ⟨hn, rfl, rfl⟩ | ⟨r, hn, rfl, rfl⟩
    · exact (hs.1 hd).elim
    · rcases h4 with ⟨h4, h5, -⟩ | ⟨pre, i, e, rfl, h5, h6, h7⟩
      · refine ⟨_, U, ⟨by rw [eo]; exact ht', ?_, ?_, rfl, hk.silents (B := []) hI h4 (by simpa using ht')⟩, hp,
          fun hx => (nf hx).elim, nofun⟩
        · rw [List.filterMap_append, he, (CItem.silent_items h4).1, programEvents_append, (programEvents_plain h5).1]
        · rw [List.filterMap_append, hc, (CItem.silent_items h4).2, programCalls_append, (programEvents_plain h5).2]
      · obtain ⟨-, -, -, h8⟩ := h7
        rw [hn] at h8; cases h8
    · rcases h4 with ⟨h4, h5, h6⟩ | ⟨pre, i, e, rfl, h5, h6, h7⟩
      · cases r with
        | ok e => exact (h6 e hn).elim
        | error e =>
          refine ⟨c'.state, U, ⟨?_, ?_, ?_, v, hk.silents (B := []) hI h4 (by simpa using ht')⟩,
            noPanic_append.2 ⟨hp, by simp [NoPanic, Program.resume]⟩, fun _ => rfl,
            fun _ => ⟨e, List.mem_append_right _ (by simp [Program.resume])⟩⟩
          · rw [← List.append_assoc, programStream_append, clientOps_append, eo]
            exact (congrArg (fun l => _ = l) rfl).mp ((List.append_nil _).symm ▸ ht')
          · rw [List.filterMap_append, he, (CItem.silent_items h4).1, programEvents_append, programEvents_append,
              (programEvents_plain h5).1]
            simp [Program.resume, programEvents, programStream, ProgramItem.stream?, streamPart, streamEvents]
          · rw [List.filterMap_append, hc, (CItem.silent_items h4).2, programCalls_append, programCalls_append,
              (programEvents_plain h5).2]
            simp [Program.resume, programCalls, programStream, ProgramItem.stream?, streamPart, streamCalls]
      · have h7' := h7
        obtain ⟨-, -, -, h8⟩ := h7
        rw [hn] at h8
        cases h8
        rw [← List.append_assoc] at ht'
        obtain ⟨v', s', calls, flow, J', h9, h10, h11, h12⟩ :=
          hk.event coin (hk.silents (B := [i]) hI h5 ht') h6 ht'
        have hT : P.resume v c' coin (.ok e : Except (StreamError ClientError) ClientEvent) = (if flow = .continue then
            .running v' { c' with state := s' } else .over, calls.map fun op => .stream (.stream (.user op))) := by
          simp only [Program.resume, h9]
          cases flow <;> rfl
        rw [hT]
        have nf' : ¬ ∃ e, .nextFailed e ∈ J.map ProgramItem.stream ++ calls.map fun op =>
            (.stream (.stream (.user op)) : ProgramItem ClientError ClientEvent ClientOp) := by
          rintro ⟨e, hm⟩
          rcases List.mem_append.1 hm with hm | hm
          · exact nf ⟨e, hm⟩
          · obtain ⟨i, -, hi⟩ := List.mem_map.1 hm
            cases hi
        refine ⟨s', pre ++ i :: J', ⟨?_, ?_, ?_, ?_⟩, noPanic_append.2 ⟨hp, noPanic_calls _⟩, fun hx => (nf' hx).elim, ?_⟩
        · rw [← List.append_assoc, programStream_append, clientOps_append, eo, programStream_calls, clientOps_calls,
            ← List.append_assoc, List.append_cons (A ++ pre)]
          exact Client.trace_join ht' h10.trace
        · rw [List.append_cons pre, List.filterMap_append, List.filterMap_append, he, (CItem.event_items h5 h6).1, h10.items.1,
            programEvents_append, programEvents_append, (programEvents_eventful h7').1, programEvents_calls]
        · rw [List.append_cons pre, List.filterMap_append, List.filterMap_append, hc, (CItem.event_items h5 h6).2, h10.items.2,
            programCalls_append, programCalls_append, (programEvents_eventful h7').2, programCalls_calls]
        · rw [← List.append_assoc]
          cases flow with
          | «continue» => exact ⟨rfl, h11 rfl⟩
          | abort => exact h12 rfl
        · cases flow <;> nofun
  | line text =>
    obtain ⟨d, D, r, h0, h1, h2⟩ := Program.step_line h
    obtain ⟨h3, h4⟩ := FullStream.dropFuture_state h0
    rw [h3] at h1
    obtain ⟨v', s', calls, J, rfl, h5, h6⟩ := hk.line hI ht h1
    rcases h2 with ⟨p, hp, -, -⟩ | ⟨_, _, _, hp, rfl, rfl⟩
    · cases hp
    · cases hp
      have eo : clientOps (programStream (T0 ++ (D.map .stream ++ .line text :: calls.map fun op => .stream (.stream (.user op))))) =
          clientOps (programStream T0) ++ calls := by
        rw [programStream_append, programStream_append, clientOps_append, clientOps_append,
          clientOps_dropped (programStream_dropped h4), programStream_line, programStream_calls, clientOps_calls, List.nil_append]
      refine ⟨s', J, ⟨by rw [eo]; exact Client.trace_join ht h5.trace, ?_, ?_, rfl, h6⟩,
        noPanic_append.2 ⟨noPanic_items ?_, noPanic_line (noPanic_calls _)⟩, ?_, nofun⟩
      · rw [List.filterMap_append, he, h5.items.1, programEvents_append, programEvents_append, (programEvents_dropped h4).1,
          programEvents_line, programEvents_calls]
        rfl
      · rw [List.filterMap_append, hc, h5.items.2, programCalls_append, programCalls_append, (programEvents_dropped h4).2,
          programCalls_line, programCalls_calls]
        rfl
      · intro p hm
        cases h4 _ hm
      · rintro ⟨e, hm⟩
        rcases List.mem_append.1 hm with hm | hm
        · obtain ⟨i, -, hi⟩ := List.mem_map.1 hm; cases hi
        · rcases List.mem_cons.1 hm with hm | hm
          · cases hm
          · obtain ⟨i, -, hi⟩ := List.mem_map.1 hm; cases hi

theorem ClientKept.run (hL : L.Lawful) {g : HandleGenerator} {P : Program σ Client ClientEvent ClientOp}
    {I : σ → List CItem → Prop} {Q : List CItem → Prop} (hk : ClientKept L g P I Q) {x y : Running K σ Client}
    {as : List ProgramAct} {T : List (ProgramItem ClientError ClientEvent ClientOp)} {s0 : Client}
    (hx : ClientKept.At L g I Q [] x s0 []) (hxd : x ≠ .dead) (h : P.run (clientMachine L) x as = some (y, T)) :
    ∃ s' A, ClientKept.At L g I Q T y s' A ∧ y.Stands T := by
  induction as using snocInduction generalizing y T with
  | nil => cases h; exact ⟨_, _, hx, by simp [NoPanic], by simp [hxd]⟩
  | snoc as a ih =>
    obtain ⟨z, T1, T2, h1, h2, rfl⟩ := Program.run_snoc h
    obtain ⟨s1, A1, h3, h4⟩ := ih h1
    obtain ⟨s2, A2, h5, h6⟩ := hk.step hL h3 h2
    refine ⟨s2, _, h5, noPanic_append.2 ⟨h4.1, h6.1⟩, ?_⟩
    obtain ⟨v, c, rfl⟩ := Program.step_running h2
    rw [← h6.2]
    constructor
    · rintro ⟨e, he⟩
      rcases List.mem_append.1 he with he | he
      · cases h4.2.1 ⟨e, he⟩
      · exact ⟨e, he⟩
    · rintro ⟨e, he⟩
      exact ⟨e, List.mem_append_right _ he⟩

end

/-! ## Servers -/

section
variable {σ : Type}

/-- At most one call of the user. -/
structure Server.Calls (L : Lib) (c : Server) (calls : List ServerOp) (c' : Server) (J : List SItem) : Prop where
  trace : c.trace L calls = .ok (c', J)
  one : calls = [] ∨ ∃ op : ServerOp, calls = [op] ∧ op.Allowed

theorem Server.Calls.items {c c' : Server} {calls : List ServerOp} {J : List SItem} (h : c.Calls L calls c' J) :
    J.filterMap SItem.event? = [] ∧ J.filterMap SItem.op? = calls := by
  obtain ⟨h1, rfl | ⟨op, rfl, h2, h3⟩⟩ := h
  · cases h1; exact ⟨rfl, rfl⟩
  · simp only [Server.trace] at h1
    split at h1
    · cases h1
    · rename_i c1 J1 h4
      cases h1
      cases op <;> first | exact (h2 rfl).elim | exact (h3 _ rfl).elim | (
        simp only [Server.callTrace, Except.map] at h4
        first | (cases h4; exact ⟨rfl, rfl⟩) | (split at h4 <;> cases h4; exact ⟨rfl, rfl⟩))

/-- The property `I` of the variables and the trace holds whenever the program awaits something, and `Q` holds of the trace
when the program has ended. -/
structure ServerKept (L : Lib) (g : HandleGenerator) (o : ServerOptions) (gr : Greeting) (P : Program σ Server ServerEvent ServerOp)
    (I : σ → List SItem → Prop) (Q : List SItem → Prop) : Prop where
  start : I P.start []
  silent : ∀ {v A i B ops c}, I v A → i.Silent → (Server.new g o gr).trace L ops = .ok (c, A ++ i :: B) → I v (A ++ [i])
  event : ∀ {v A i e ops c} (coin : Bool), I v A → i.event? = some e →
    (Server.new g o gr).trace L ops = .ok (c, A ++ [i]) →
    ∃ v' c' calls flow J, P.event v c e coin = .ok (v', c', calls, flow) ∧ c.Calls L calls c' J ∧
      (flow = .continue → I v' (A ++ i :: J)) ∧ (flow = .abort → Q (A ++ i :: J))
  line : ∀ {v A ops c text x}, I v A → (Server.new g o gr).trace L ops = .ok (c, A) → P.line v c text = some x →
    ∃ v' c' calls J, x = .ok (v', c', calls) ∧ c.Calls L calls c' J ∧ I v' (A ++ J)

theorem ServerKept.silents {g : HandleGenerator} {o : ServerOptions} {gr : Greeting} {P : Program σ Server ServerEvent ServerOp} {I : σ → List SItem → Prop}
    {Q : List SItem → Prop} (hk : ServerKept L g o gr P I Q) {v : σ} {A U B : List SItem} {ops : List ServerOp} {c : Server}
    (hI : I v A) (hU : ∀ i ∈ U, i.Silent) (h : (Server.new g o gr).trace L ops = .ok (c, A ++ U ++ B)) : I v (A ++ U) := by
  induction U generalizing A with
  | nil => simpa using hI
  | cons i U ih =>
    have h1 := hk.silent (B := U ++ B) hI (hU i (by simp)) (by simpa using h)
    have h2 := ih h1 (fun j hj => hU j (by simp [hj])) (by simpa using h)
    simpa using h2

/-- What holds of the program after the items `T`: `A` is the trace of the server. -/
structure ServerKept.At (L : Lib) (g : HandleGenerator) (o : ServerOptions) (gr : Greeting) (I : σ → List SItem → Prop) (Q : List SItem → Prop)
    (T : List (ProgramItem ServerError ServerEvent ServerOp)) (x : Running K σ Server) (c : Server) (A : List SItem) : Prop where
  trace : (Server.new g o gr).trace L (serverOps (programStream T)) = .ok (c, A)
  events : A.filterMap SItem.event? = programEvents T
  calls : A.filterMap SItem.op? = programCalls T
  kept : match x with
    | .running v s => s.state = c ∧ I v A
    | .over => Q A
    | .dead => ∃ v, I v A

theorem ServerKept.step (hL : L.Lawful) {g : HandleGenerator} {o : ServerOptions} {gr : Greeting} (hO : ServerOptions.Built L o) {P : Program σ Server ServerEvent ServerOp}
    {I : σ → List SItem → Prop} {Q : List SItem → Prop} (hk : ServerKept L g o gr P I Q) {x y : Running K σ Server}
    {a : ProgramAct} {T0 T : List (ProgramItem ServerError ServerEvent ServerOp)} {s0 : Server} {A : List SItem}
    (hx : ServerKept.At L g o gr I Q T0 x s0 A) (h : P.step (serverMachine L) x a = some (y, T)) :
    ∃ s' U, ServerKept.At L g o gr I Q (T0 ++ T) y s' (A ++ U) ∧ y.Stands T := by
  obtain ⟨v, c, rfl⟩ := Program.step_running h
  obtain ⟨ht, he, hc, rfl, hI⟩ := hx
  have hsafe := serverMachine_safe hL g hO gr
  cases a with
  | io act coin =>
    obtain ⟨c', J, h1, h2⟩ := Program.step_io h
    have hs := (FullStream.step_cases h1).alive hsafe ⟨_, A, ht⟩
    obtain ⟨U, h3, h4⟩ := server_called hsafe ⟨_, A, ht⟩ (by cases act <;> nofun) h1
    have ht' := Server.trace_join ht h3
    have eo : serverOps (programStream (T0 ++ J.map .stream)) = serverOps (programStream T0) ++ serverOps (streamPart J) := by
      rw [programStream_append, serverOps_append, programStream_items]
    have hp := noPanic_items hs.2
    have nf : ¬ ∃ e, .nextFailed e ∈ J.map ProgramItem.stream := by
      rintro ⟨e, hm⟩
      obtain ⟨i, -, hi⟩ := List.mem_map.1 hm
      cases hi
    rcases h2 with ⟨hd, -, -⟩ | ⟨hn, rfl, rfl⟩ | ⟨r, hn, rfl, rfl⟩
    · exact (hs.1 hd).elim
    · rcases h4 with ⟨h4, h5, -⟩ | ⟨pre, i, e, rfl, h5, h6, h7⟩
      · refine ⟨_, U, ⟨by rw [eo]; exact ht', ?_, ?_, rfl, hk.silents (B := []) hI h4 (by simpa using ht')⟩, hp,
          fun hx => (nf hx).elim, nofun⟩
        · rw [List.filterMap_append, he, (SItem.silent_items h4).1, programEvents_append, (programEvents_plain h5).1]
        · rw [List.filterMap_append, hc, (SItem.silent_items h4).2, programCalls_append, (programEvents_plain h5).2]
      · obtain ⟨-, -, -, h8⟩ := h7
        rw [hn] at h8; cases h8
    · rcases h4 with ⟨h4, h5, h6⟩ | ⟨pre, i, e, rfl, h5, h6, h7⟩
      · cases r with
        | ok e => exact (h6 e hn).elim
        | error e =>
          refine ⟨c'.state, U, ⟨?_, ?_, ?_, v, hk.silents (B := []) hI h4 (by simpa using ht')⟩,
            noPanic_append.2 ⟨hp, by simp [NoPanic, Program.resume]⟩, fun _ => rfl,
            fun _ => ⟨e, List.mem_append_right _ (by simp [Program.resume])⟩⟩
          · rw [← List.append_assoc, programStream_append, serverOps_append, eo]
            exact (congrArg (fun l => _ = l) rfl).mp ((List.append_nil _).symm ▸ ht')
          · rw [List.filterMap_append, he, (SItem.silent_items h4).1, programEvents_append, programEvents_append,
              (programEvents_plain h5).1]
            simp [Program.resume, programEvents, programStream, ProgramItem.stream?, streamPart, streamEvents]
          · rw [List.filterMap_append, hc, (SItem.silent_items h4).2, programCalls_append, programCalls_append,
              (programEvents_plain h5).2]
            simp [Program.resume, programCalls, programStream, ProgramItem.stream?, streamPart, streamCalls]
      · have h7' := h7
        obtain ⟨-, -, -, h8⟩ := h7
        rw [hn] at h8
        cases h8
        rw [← List.append_assoc] at ht'
        obtain ⟨v', s', calls, flow, J', h9, h10, h11, h12⟩ :=
          hk.event coin (hk.silents (B := [i]) hI h5 ht') h6 ht'
        have hT : P.resume v c' coin (.ok e : Except (StreamError ServerError) ServerEvent) = (if flow = .continue then
            .running v' { c' with state := s' } else .over, calls.map fun op => .stream (.stream (.user op))) := by
          simp only [Program.resume, h9]
          cases flow <;> rfl
        rw [hT]
        have nf' : ¬ ∃ e, .nextFailed e ∈ J.map ProgramItem.stream ++ calls.map fun op =>
            (.stream (.stream (.user op)) : ProgramItem ServerError ServerEvent ServerOp) := by
          rintro ⟨e, hm⟩
          rcases List.mem_append.1 hm with hm | hm
          · exact nf ⟨e, hm⟩
          · obtain ⟨i, -, hi⟩ := List.mem_map.1 hm
            cases hi
        refine ⟨s', pre ++ i :: J', ⟨?_, ?_, ?_, ?_⟩, noPanic_append.2 ⟨hp, noPanic_calls _⟩, fun hx => (nf' hx).elim, ?_⟩
        · rw [← List.append_assoc, programStream_append, serverOps_append, eo, programStream_calls, serverOps_calls,
            ← List.append_assoc, List.append_cons (A ++ pre)]
          exact Server.trace_join ht' h10.trace
        · rw [List.append_cons pre, List.filterMap_append, List.filterMap_append, he, (SItem.event_items h5 h6).1, h10.items.1,
            programEvents_append, programEvents_append, (programEvents_eventful h7').1, programEvents_calls]
        · rw [List.append_cons pre, List.filterMap_append, List.filterMap_append, hc, (SItem.event_items h5 h6).2, h10.items.2,
            programCalls_append, programCalls_append, (programEvents_eventful h7').2, programCalls_calls]
        · rw [← List.append_assoc]
          cases flow with
          | «continue» => exact ⟨rfl, h11 rfl⟩
          | abort => exact h12 rfl
        · cases flow <;> nofun
  | line text =>
    obtain ⟨d, D, r, h0, h1, h2⟩ := Program.step_line h
    obtain ⟨h3, h4⟩ := FullStream.dropFuture_state h0
    rw [h3] at h1
    obtain ⟨v', s', calls, J, rfl, h5, h6⟩ := hk.line hI ht h1
    rcases h2 with ⟨p, hp, -, -⟩ | ⟨_, _, _, hp, rfl, rfl⟩
    · cases hp
    · cases hp
      have eo : serverOps (programStream (T0 ++ (D.map .stream ++ .line text :: calls.map fun op => .stream (.stream (.user op))))) =
          serverOps (programStream T0) ++ calls := by
        rw [programStream_append, programStream_append, serverOps_append, serverOps_append,
          serverOps_dropped (programStream_dropped h4), programStream_line, programStream_calls, serverOps_calls, List.nil_append]
      refine ⟨s', J, ⟨by rw [eo]; exact Server.trace_join ht h5.trace, ?_, ?_, rfl, h6⟩,
        noPanic_append.2 ⟨noPanic_items ?_, noPanic_line (noPanic_calls _)⟩, ?_, nofun⟩
      · rw [List.filterMap_append, he, h5.items.1, programEvents_append, programEvents_append, (programEvents_dropped h4).1,
          programEvents_line, programEvents_calls]
        rfl
      · rw [List.filterMap_append, hc, h5.items.2, programCalls_append, programCalls_append, (programEvents_dropped h4).2,
          programCalls_line, programCalls_calls]
        rfl
      · intro p hm
        cases h4 _ hm
      · rintro ⟨e, hm⟩
        rcases List.mem_append.1 hm with hm | hm
        · obtain ⟨i, -, hi⟩ := List.mem_map.1 hm; cases hi
        · rcases List.mem_cons.1 hm with hm | hm
          · cases hm
          · obtain ⟨i, -, hi⟩ := List.mem_map.1 hm; cases hi

theorem ServerKept.run (hL : L.Lawful) {g : HandleGenerator} {o : ServerOptions} {gr : Greeting} (hO : ServerOptions.Built L o) {P : Program σ Server ServerEvent ServerOp}
    {I : σ → List SItem → Prop} {Q : List SItem → Prop} (hk : ServerKept L g o gr P I Q) {x y : Running K σ Server}
    {as : List ProgramAct} {T : List (ProgramItem ServerError ServerEvent ServerOp)} {s0 : Server}
    (hx : ServerKept.At L g o gr I Q [] x s0 []) (hxd : x ≠ .dead) (h : P.run (serverMachine L) x as = some (y, T)) :
    ∃ s' A, ServerKept.At L g o gr I Q T y s' A ∧ y.Stands T := by
  induction as using snocInduction generalizing y T with
  | nil => cases h; exact ⟨_, _, hx, by simp [NoPanic], by simp [hxd]⟩
  | snoc as a ih =>
    obtain ⟨z, T1, T2, h1, h2, rfl⟩ := Program.run_snoc h
    obtain ⟨s1, A1, h3, h4⟩ := ih h1
    obtain ⟨s2, A2, h5, h6⟩ := hk.step hL hO h3 h2
    refine ⟨s2, _, h5, noPanic_append.2 ⟨h4.1, h6.1⟩, ?_⟩
    obtain ⟨v, c, rfl⟩ := Program.step_running h2
    rw [← h6.2]
    constructor
    · rintro ⟨e, he⟩
      rcases List.mem_append.1 he with he | he
      · cases h4.2.1 ⟨e, he⟩
      · exact ⟨e, he⟩
    · rintro ⟨e, he⟩
      exact ⟨e, List.mem_append_right _ he⟩

end

end ImapFlow
