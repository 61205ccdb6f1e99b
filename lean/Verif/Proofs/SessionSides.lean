import Verif.Proofs.SessionPairs

/-!
# The two sides of a session

What each of the programs does in a session is a run of this program.
-/

namespace ImapFlow

variable {K : Type} {L : Lib} {gc gs : HandleGenerator} {text : Text} {σ τ : Type}
  {P : Program σ Client ClientEvent ClientOp} {P' : Program τ Server ServerEvent ServerOp} {s s' : Session K σ τ}
  {as : List SessionAct} {R : List SessionItem}

/-- A step is a step of one of the programs. -/
theorem Session.step_side {a : SessionAct} (h : s.step L P P' a = some (s', R)) :
    (∃ act, P.step (clientMachine L) s.client act = some (s'.client, sessionClient R) ∧ s'.server = s.server ∧ sessionServer R = []) ∨
    ∃ act, P'.step (serverMachine L) s.server act = some (s'.server, sessionServer R) ∧ s'.client = s.client ∧
      sessionClient R = [] := by
  have cl : ∀ {act rest}, s.clientDoes L P act rest = some (s', R) → (∃ act, P.step (clientMachine L) s.client act =
      some (s'.client, sessionClient R) ∧ s'.server = s.server ∧ sessionServer R = []) := by
    intro act rest hx
    obtain ⟨x, items, h1, rfl, rfl⟩ := Session.clientDoes_cases hx
    exact ⟨act, by rw [(sessionClient_client items).1]; exact h1, rfl, (sessionClient_client items).2⟩
  have sv : ∀ {act rest}, s.serverDoes L P' act rest = some (s', R) → ∃ act, P'.step (serverMachine L) s.server act =
      some (s'.server, sessionServer R) ∧ s'.client = s.client ∧ sessionClient R = [] := by
    intro act rest hx
    obtain ⟨x, items, h1, rfl, rfl⟩ := Session.serverDoes_cases hx
    exact ⟨act, by rw [(sessionServer_server items).1]; exact h1, rfl, (sessionServer_server items).2⟩
  cases a with
  | client act =>
    simp only [Session.step] at h
    split at h
    · exact .inl (cl h)
    · cases h
  | clientLine text => exact .inl (cl h)
  | server act coin =>
    simp only [Session.step] at h
    split at h
    · exact .inr (sv h)
    · cases h
  | serverLine text => exact .inr (sv h)

theorem Program.run_cons {S ε ev ι : Type} {Q : Program σ S ev ι} {M : Machine S ε ev ι} {x y z : Running K σ S} {a : ProgramAct}
    {bs : List ProgramAct} {T1 T2 : List (ProgramItem ε ev ι)} (h1 : Q.step M x a = some (y, T1)) (h2 : Q.run M y bs = some (z, T2)) :
    Q.run M x (a :: bs) = some (z, T1 ++ T2) := by
  simp only [Program.run, h1, h2]

theorem Session.run_sides (h : s.run L P P' as = some (s', R)) :
    (∃ bs, P.run (clientMachine L) s.client bs = some (s'.client, sessionClient R)) ∧
    ∃ bs, P'.run (serverMachine L) s.server bs = some (s'.server, sessionServer R) := by
  induction as generalizing s R with
  | nil => cases h; exact ⟨⟨[], rfl⟩, [], rfl⟩
  | cons a as ih =>
    simp only [Session.run] at h
    split at h
    · cases h
    · rename_i s1 items h1
      split at h
      · cases h
      · rename_i s2 R2 h2
        cases h
        obtain ⟨⟨bs, k1⟩, cs, k2⟩ := ih h2
        rw [sessionClient_append, sessionServer_append]
        rcases Session.step_side h1 with ⟨act, h3, h4, h5⟩ | ⟨act, h3, h4, h5⟩
        · exact ⟨⟨_, Program.run_cons h3 k1⟩, cs, by rw [← h4, h5]; exact k2⟩
        · exact ⟨⟨bs, by rw [← h4, h5]; exact k1⟩, _, Program.run_cons h3 k2⟩

theorem SessionRuns.client (h : SessionRuns L gc gs text P P' as s R) : ClientRuns L gc P s.client (sessionClient R) := by
  obtain ⟨server, -, h2⟩ := h
  exact (Session.run_sides h2).1

theorem SessionRuns.server (h : SessionRuns L gc gs text P P' as s R) : ServerRuns L gs text P' s.server (sessionServer R) := by
  obtain ⟨server, h1, h2⟩ := h
  obtain ⟨-, bs, h3⟩ := Session.run_sides h2
  exact ⟨server, bs, h1, h3⟩

/-! ## Who calls -/

section
variable {S ε ev ι : Type}

theorem FullStream.Advanced.uncalled {M : Machine S ε ev ι} {c c' : FullStream K S} {T : List (FullItem ε ev ι)}
    (h : Advanced M c c' T) (op : ι) : .stream (.user op) ∉ T := by
  have hD : ∀ {b s s1} {D : List (StreamItem ε ev ι)}, Provides M b s s1 D → D = [] ∨ D = [.deliver b] := by
    rintro b s s1 D (⟨-, -, rfl⟩ | ⟨-, -, rfl⟩)
    · exact .inl rfl
    · exact .inr rfl
  cases h with
  | hung => simp
  | broken => simp
  | inputPanic => simp
  | nextPanic h1 h2 => rcases hD h2 with rfl | rfl <;> simp
  | @returned _ _ _ D _ _ r h1 h2 => rcases hD h2 with rfl | rfl <;> rcases r with (_ | _) | _ <;> simp [returns]
  | waits h1 h2 => rcases hD h2 with rfl | rfl <;> simp
  | refused h1 h2 => rcases hD h2 with rfl | rfl <;> simp

/-- The network does not call the methods of the state. -/
theorem FullStream.step_uncalled {M : Machine S ε ev ι} {c c' : FullStream K S} {a : IoAct} {T : List (FullItem ε ev ι)}
    (h : c.step M a.toStream = some (c', T)) (op : ι) : .stream (.user op) ∉ T := by
  have adv : ∀ (d : FullStream K S) (x : StreamItem ε ev ι), x ≠ .user op → .stream (.user op) ∉ .stream x :: (d.advance M).2 := by
    intro d x hx hm
    rcases List.mem_cons.1 hm with hm | hm
    · cases hm; exact hx rfl
    · exact (d.advance_cases M).uncalled op hm
  cases a with
  | poll =>
    simp only [IoAct.toStream, step] at h
    split at h
    · cases h; exact adv _ _ (by simp)
    · cases h
  | fail =>
    simp only [IoAct.toStream, step] at h
    split at h <;> cases h <;> simp
  | read b =>
    have key : completeRead M c b = (c', T) → .stream (.user op) ∉ T := by
      intro h
      unfold completeRead at h
      split at h
      · cases h; simp
      · cases h; exact adv _ _ (by simp)
    simp only [IoAct.toStream, step] at h
    split at h
    · exact key (Option.some.inj h)
    · exact key (Option.some.inj h)
    · cases h
  | write n =>
    simp only [IoAct.toStream, step] at h
    split at h
    · split at h
      · have h := Option.some.inj h
        unfold completeWrite at h
        dsimp only at h
        split at h
        · cases h; simp
        · split at h
          · cases h; exact adv _ _ (by simp)
          · cases h; simp
      · have h := Option.some.inj h
        unfold completeFlush at h
        dsimp only at h
        split at h
        · cases h; simp
        · split at h <;> cases h <;> simp
      · cases h
    · cases h

/-- The calls of a program in one step are those with which it answers an event. -/
theorem Program.step_calls {Q : Program σ S ev ι} {M : Machine S ε ev ι} {v : σ} {c : FullStream K S} {act : IoAct} {coin : Bool}
    {x : Running K σ S} {items : List (ProgramItem ε ev ι)} (h : Q.step M (.running v c) (.io act coin) = some (x, items)) :
    programCalls items = [] ∨ ∃ st e v' st' k, Q.event v st e coin = .ok (v', st', programCalls items, k) := by
  obtain ⟨c', J, h1, h2⟩ := Program.step_io h
  have hJ : programCalls (J.map ProgramItem.stream) = ([] : List ι) := by
    unfold programCalls streamCalls
    rw [programStream_items, List.filterMap_eq_nil_iff]
    intro i hi
    obtain ⟨j, hj, hji⟩ := List.mem_filterMap.1 hi
    cases i with
    | user op =>
      cases j with
      | stream y => cases hji; exact (FullStream.step_uncalled h1 op hj).elim
      | _ => cases hji
    | _ => rfl
  rcases h2 with ⟨-, -, rfl⟩ | ⟨-, -, rfl⟩ | ⟨r, -, -, rfl⟩
  · exact .inl hJ
  · exact .inl hJ
  · rw [programCalls_append, hJ, List.nil_append]
    cases r with
    | error e => exact .inl rfl
    | ok e =>
      simp only [Program.resume]
      split
      · exact .inl rfl
      · rename_i v' st' calls he
        exact .inr ⟨_, _, _, _, _, by rw [programCalls_calls]; exact he⟩
      · rename_i v' st' calls he
        exact .inr ⟨_, _, _, _, _, by rw [programCalls_calls]; exact he⟩

end

end ImapFlow
