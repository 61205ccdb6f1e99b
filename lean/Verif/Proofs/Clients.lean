import Verif.Spec.Clients
import Verif.Proofs.Service

/-!
# Lemmas about the clients of a service
-/

namespace ImapFlow

variable {K : Type} {L : Lib} {configs : List ServiceConfig} {i j : Nat}

theorem readyClients_snoc (b : Bool) (i : Nat) (as : List (DaemonAct K)) (a : DaemonAct K) :
    readyClients b i (as ++ [a]) = readyClients b i as ++ (a.client? b i).toList := by
  rw [readyClients, List.filterMap_append]
  show _ = readyClients b i as ++ _
  rw [readyClients]
  congr 1

theorem ownActs_snoc (i j : Nat) (as : List (DaemonAct K)) (a : DaemonAct K) :
    ownActs i j (as ++ [a]) = ownActs i j as ++ (a.own? i j).toList := by
  rw [ownActs, List.filterMap_append]
  show _ = ownActs i j as ++ _
  rw [ownActs]
  congr 1

theorem DaemonAct.own?_other {i' j' : Nat} {act : TaskAct K} (h : ¬ (i' = i ∧ j' = j)) :
    (DaemonAct.task i' j' act).own? i j = none := by
  simp only [own?]
  rw [if_neg h]

/-- A step of the accept loop starts a task for a client that is ready. -/
theorem Service.step_ready {s s' : Service K} {act : ServiceAct K} (h : s.step act = some s') (i : Nat) :
    s'.tasks = s.tasks ++ ((DaemonAct.service i act).client? s.config.bindTls i).toList.map .connecting := by
  unfold Service.step at h
  split at h
  · split at h
    · split at h
      · rename_i hb
        split at h <;> cases h <;> simp [DaemonAct.client?, hb]
      · rename_i hb
        cases h
        simp [DaemonAct.client?, hb]
    · cases h
  · split at h
    · cases h; simp [DaemonAct.client?]
    · cases h
  · split at h
    · cases h; simp [DaemonAct.client?]
    · cases h
  · split at h
    · cases h; simp [DaemonAct.client?]
    · cases h

/-- The life of a task goes on. -/
theorem Life.step {config : ServiceConfig} {tc : Option (Tls K)} {acts : List (TaskAct K)} {t t' : Task K} {items its : List ProxyItem}
    {act : TaskAct K} (h : Life L config tc acts t items) (hs : t.step L config act = some (t', its)) :
    Life L config tc (acts ++ [act]) t' (items ++ its) := by
  cases h with
  | connecting =>
    cases act with
    | connected gc gs =>
      unfold Task.step at hs
      dsimp only at hs
      split at hs
      · rename_i hc
        split at hs
        · rename_i hv
          cases hs
          exact .handshaking gc gs hc hv
        · rename_i hv
          cases hs
          exact .invalid gc gs hc (by simpa using hv)
      · rename_i hc
        cases hs
        exact .insecure gc gs [] _ _ (by simpa using hc) rfl
    | connectFailed => cases hs; exact .unreachable
    | secured => cases hs
    | handshakeFailed => cases hs
    | proxy => cases hs
  | unreachable => cases act <;> cases hs
  | invalid => cases act <;> cases hs
  | handshaking gc gs hc hv =>
    cases act with
    | connected => cases hs
    | connectFailed => cases hs
    | secured t gc' gs' =>
      cases hs
      exact .secure gc gs t gc' gs' [] _ _ hc hv rfl
    | handshakeFailed => cases hs; exact .distrusted gc gs hc hv
    | proxy => cases hs
  | distrusted => cases act <;> cases hs
  | insecure gc gs acts q items hc hr =>
    cases act with
    | proxy a =>
      unfold Task.step at hs
      dsimp only at hs
      split at hs
      · cases hs
      · rename_i q' its' hq
        cases hs
        have := Life.insecure (tc := tc) gc gs (acts ++ [a]) _ _ hc (Proxy.run_snoc hr hq)
        simpa using this
    | connected => cases hs
    | connectFailed => cases hs
    | secured => cases hs
    | handshakeFailed => cases hs
  | secure gc' gs' t gc gs acts q items hc hv hr =>
    cases act with
    | proxy a =>
      unfold Task.step at hs
      dsimp only at hs
      split at hs
      · cases hs
      · rename_i q' its' hq
        cases hs
        have := Life.secure (tc := tc) gc' gs' t gc gs (acts ++ [a]) _ _ hc hv (Proxy.run_snoc hr hq)
        simpa using this
    | connected => cases hs
    | connectFailed => cases hs
    | secured => cases hs
    | handshakeFailed => cases hs

/-- Each client has its task. -/
structure Daemon.Serves (L : Lib) (configs : List ServiceConfig) (p : Daemon K) (as : List (DaemonAct K)) (T : List DaemonItem) :
    Prop where
  count : p.services.length = configs.length
  config : ∀ (i : Nat) s, p.services[i]? = some s → configs[i]? = some s.config
  ready : ∀ (i : Nat) s, p.services[i]? = some s → s.tasks.length = (readyClients s.config.bindTls i as).length
  lives : ∀ (i : Nat) s, p.services[i]? = some s → ∀ (j : Nat) t, s.tasks[j]? = some t →
    ∃ tc, (readyClients s.config.bindTls i as)[j]? = some tc ∧ Life L s.config tc (ownActs i j as) t (taskItems i j T)
  future : ∀ (i : Nat) s, p.services[i]? = some s → ∀ j, s.tasks.length ≤ j → ownActs i j as = [] ∧ taskItems i j T = []

theorem Daemon.start_serves (L : Lib) (configs : List ServiceConfig) (workers : Nat) :
    (Daemon.start (K := K) workers configs).Serves L configs [] [] := by
  have key : ∀ (i : Nat) s, (Daemon.start (K := K) workers configs).services[i]? = some s →
      configs[i]? = some s.config ∧ s.tasks = [] := by
    intro i s hs
    simp only [Daemon.start, List.getElem?_map, Option.map_eq_some_iff] at hs
    obtain ⟨c, hc, rfl⟩ := hs
    exact ⟨hc, rfl⟩
  refine ⟨by simp [Daemon.start], fun i s hs => (key i s hs).1, ?_, ?_, fun _ _ _ _ _ => ⟨rfl, rfl⟩⟩
  · intro i s hs; rw [(key i s hs).2]; rfl
  · intro i s hs j t ht; rw [(key i s hs).2] at ht; cases ht

theorem Daemon.Serves.step {p p' : Daemon K} {as : List (DaemonAct K)} {a : DaemonAct K} {T items : List DaemonItem}
    (h : p.Serves L configs as T) (hs : p.step L a = some (p', items)) : p'.Serves L configs (as ++ [a]) (T ++ items) := by
  cases a with
  | service i act =>
    obtain ⟨s, s', h1, h2, rfl, -, rfl⟩ := step_service hs
    have hc := (Service.step_cases h2).1
    have ht := Service.step_ready h2 i
    have get : ∀ i' x, (p.services.set i s')[i']? = some x → i = i' ∧ x = s' ∨ i ≠ i' ∧ p.services[i']? = some x := by
      intro i' x hx
      rw [List.getElem?_set] at hx
      split at hx
      · rename_i hi
        split at hx
        · cases hx; exact .inl ⟨hi, rfl⟩
        · cases hx
      · rename_i hi; exact .inr ⟨hi, hx⟩
    have hown : ∀ i' j', ownActs i' j' (as ++ [.service i act]) = ownActs i' j' as := by
      intro i' j'; rw [ownActs_snoc]; simp [DaemonAct.own?]
    have hoth : ∀ b i', i ≠ i' → readyClients b i' (as ++ [.service i act]) = readyClients b i' as := by
      intro b i' hi
      rw [readyClients_snoc]
      cases act <;> simp [DaemonAct.client?, hi]
    refine ⟨?_, ?_, ?_, ?_, ?_⟩
    · simpa using h.count
    · intro i' x hx
      rcases get i' x hx with ⟨rfl, rfl⟩ | ⟨-, hx⟩
      · rw [hc]; exact h.config i s h1
      · exact h.config i' x hx
    · intro i' x hx
      rcases get i' x hx with ⟨rfl, rfl⟩ | ⟨hi, hx⟩
      · rw [hc, readyClients_snoc, ht, List.length_append, List.length_append, List.length_map, h.ready i s h1]
      · rw [hoth _ _ hi]; exact h.ready i' x hx
    · intro i' x hx j t hj
      rw [hown, List.append_nil]
      rcases get i' x hx with ⟨rfl, rfl⟩ | ⟨hi, hx⟩
      · rw [hc, readyClients_snoc]
        rw [ht, List.getElem?_append] at hj
        split at hj
        · rename_i hlt
          obtain ⟨tc, e1, e2⟩ := h.lives i s h1 j t hj
          exact ⟨tc, by rw [List.getElem?_append_left (by rw [← h.ready i s h1]; exact hlt)]; exact e1, e2⟩
        · rename_i hge
          rw [List.getElem?_map, Option.map_eq_some_iff] at hj
          obtain ⟨tc, e1, rfl⟩ := hj
          obtain ⟨f1, f2⟩ := h.future i s h1 j (by omega)
          refine ⟨tc, ?_, ?_⟩
          · rw [List.getElem?_append_right (by rw [← h.ready i s h1]; omega), ← h.ready i s h1]; exact e1
          · rw [f1, f2]; exact .connecting
      · rw [hoth _ _ hi]; exact h.lives i' x hx j t hj
    · intro i' x hx j hj
      rw [hown, List.append_nil]
      rcases get i' x hx with ⟨rfl, rfl⟩ | ⟨-, hx⟩
      · refine h.future i s h1 j ?_
        rw [ht, List.length_append] at hj
        omega
      · exact h.future i' x hx j hj
  | task i j act =>
    obtain ⟨s, t, t', its, h1, h2, h3, rfl, -, rfl⟩ := step_task hs
    have hlt' : j < s.tasks.length := (List.getElem?_eq_some_iff.1 h2).1
    have get : ∀ i' x, (p.services.set i { s with tasks := s.tasks.set j t' })[i']? = some x →
        i = i' ∧ x = { s with tasks := s.tasks.set j t' } ∨ i ≠ i' ∧ p.services[i']? = some x := by
      intro i' x hx
      rw [List.getElem?_set] at hx
      split at hx
      · rename_i hi
        split at hx
        · cases hx; exact .inl ⟨hi, rfl⟩
        · cases hx
      · rename_i hi; exact .inr ⟨hi, hx⟩
    have hown : ∀ i' j', ¬ (i = i' ∧ j = j') → ownActs i' j' (as ++ [.task i j act]) = ownActs i' j' as := by
      intro i' j' hn; rw [ownActs_snoc, DaemonAct.own?_other hn]; simp
    have hready : ∀ b i', readyClients b i' (as ++ [.task i j act]) = readyClients b i' as := by
      intro b i'; rw [readyClients_snoc]; simp [DaemonAct.client?]
    have hits : ∀ i' j', ¬ (i = i' ∧ j = j') →
        taskItems i' j' (T ++ its.map fun item => ⟨i, j, item⟩) = taskItems i' j' T := by
      intro i' j' hn; rw [taskItems_append, taskItems_other hn, List.append_nil]
    refine ⟨?_, ?_, ?_, ?_, ?_⟩
    · simpa using h.count
    · intro i' x hx
      rcases get i' x hx with ⟨rfl, rfl⟩ | ⟨-, hx⟩
      · exact h.config i s h1
      · exact h.config i' x hx
    · intro i' x hx
      rw [hready]
      rcases get i' x hx with ⟨rfl, rfl⟩ | ⟨-, hx⟩
      · show (s.tasks.set j t').length = _
        rw [List.length_set]
        exact h.ready i s h1
      · exact h.ready i' x hx
    · intro i' x hx j' u hj
      rw [hready]
      rcases get i' x hx with ⟨rfl, rfl⟩ | ⟨hi, hx⟩
      · replace hj : (s.tasks.set j t')[j']? = some u := hj
        show ∃ tc, (readyClients s.config.bindTls i as)[j']? = some tc ∧ _
        rw [List.getElem?_set] at hj
        split at hj
        · rename_i hjj
          subst hjj
          cases hj
          obtain ⟨tc, e1, e2⟩ := h.lives i s h1 j t h2
          refine ⟨tc, e1, ?_⟩
          rw [ownActs_snoc, taskItems_append, taskItems_self]
          have : (DaemonAct.task i j act).own? i j = some act := by simp [DaemonAct.own?]
          rw [this]
          exact e2.step h3
        · rename_i hjj
          have hn : ¬ (i = i ∧ j = j') := fun hn => hjj hn.2
          rw [hown _ _ hn, hits _ _ hn]
          exact h.lives i s h1 j' u hj
      · have hn : ¬ (i = i' ∧ j = j') := fun hn => hi hn.1
        rw [hown _ _ hn, hits _ _ hn]
        exact h.lives i' x hx j' u hj
    · intro i' x hx j' hj
      rcases get i' x hx with ⟨rfl, rfl⟩ | ⟨hi, hx⟩
      · replace hj : (s.tasks.set j t').length ≤ j' := hj
        rw [List.length_set] at hj
        have hn : ¬ (i = i ∧ j = j') := by rintro ⟨-, rfl⟩; omega
        rw [hown _ _ hn, hits _ _ hn]
        exact h.future i s h1 j' hj
      · have hn : ¬ (i = i' ∧ j = j') := fun hn => hi hn.1
        rw [hown _ _ hn, hits _ _ hn]
        exact h.future i' x hx j' hj

theorem Daemon.run_serves {workers : Nat} {p : Daemon K} {as : List (DaemonAct K)} {T : List DaemonItem}
    (h : (Daemon.start workers configs).run L as = some (p, T)) : p.Serves L configs as T := by
  have := run_induct (P := fun p as T => p.Serves L configs as T) (fun h hs => h.step hs)
    (start_serves L configs workers) h
  simpa using this

theorem Daemon.run_append {p q r : Daemon K} {as bs : List (DaemonAct K)} {T U : List DaemonItem}
    (h1 : p.run L as = some (q, T)) (h2 : q.run L bs = some (r, U)) : p.run L (as ++ bs) = some (r, T ++ U) := by
  induction as generalizing p T with
  | nil => cases h1; exact h2
  | cons a as ih =>
    obtain ⟨p', items, T', e1, e2, rfl⟩ := run_cons h1
    rw [List.cons_append, run, e1]
    simp only [ih e2]
    simp

theorem Daemon.flatMap_set {l : List (Service K)} {i : Nat} {s s' : Service K} (hs : l[i]? = some s) (ht : s'.tasks = s.tasks) :
    (l.set i s').flatMap Service.tasks = l.flatMap Service.tasks := by
  induction l generalizing i with
  | nil => rfl
  | cons x l ih =>
    cases i with
    | zero => cases hs; simp [ht]
    | succ i => simp [ih (i := i) (by simpa using hs)]

theorem Daemon.step_of_service {p : Daemon K} {s s' : Service K} {act : ServiceAct K} (hw : p.occupied < p.workers)
    (hs : p.services[i]? = some s) (h : s.step act = some s') :
    p.step L (.service i act) = some ({ p with services := p.services.set i s' }, []) := by
  rw [step, if_neg (by omega)]
  simp only [hs, h]

end ImapFlow
