import Verif.Spec.Service

/-!
# Lemmas about the services of the proxy
-/

namespace ImapFlow

variable {K : Type} {L : Lib} {configs : List ServiceConfig} {i j i' j' : Nat}

theorem taskItems_append (i j : Nat) (T T' : List DaemonItem) :
    taskItems i j (T ++ T') = taskItems i j T ++ taskItems i j T' := List.filterMap_append

theorem talkActs_append (i j : Nat) (as bs : List (DaemonAct K)) :
    talkActs i j (as ++ bs) = talkActs i j as ++ talkActs i j bs := List.filterMap_append

theorem taskItems_self (i j : Nat) (items : List ProxyItem) :
    taskItems i j (items.map fun item => ⟨i, j, item⟩) = items := by
  induction items with
  | nil => rfl
  | cons x xs ih =>
    simp [taskItems] at ih ⊢
    exact ih

theorem taskItems_other (h : ¬ (i' = i ∧ j' = j)) (items : List ProxyItem) :
    taskItems i j (items.map fun item => ⟨i', j', item⟩) = [] := by
  rw [taskItems, List.filterMap_map]
  induction items with
  | nil => rfl
  | cons x xs ih => rw [List.filterMap_cons_none]; exact ih; simp [h]

theorem Proxy.run_snoc {p q r : Proxy K} {g : HandleGenerator} {as : List ProxyAct} {a : ProxyAct} {T items : List ProxyItem}
    (h : p.run L g as = some (q, T)) (hs : q.step L g a = some (r, items)) :
    p.run L g (as ++ [a]) = some (r, T ++ items) := by
  induction as generalizing p T with
  | nil =>
    cases h
    simp [Proxy.run, hs]
  | cons b bs ih =>
    rw [Proxy.run] at h
    rw [List.cons_append, Proxy.run]
    split at h
    · cases h
    · rename_i p' its hp
      split at h
      · cases h
      · rename_i q' T' hq
        cases h
        rw [ih hq]
        simp

namespace Daemon

/-- A step of the accept loop. -/
theorem step_service {p p' : Daemon K} {act : ServiceAct K} {items : List DaemonItem}
    (h : p.step L (.service i act) = some (p', items)) :
    ∃ s s', p.services[i]? = some s ∧ s.step act = some s' ∧ items = [] ∧ p.occupied < p.workers ∧
      p' = { p with services := p.services.set i s' } := by
  unfold step at h
  split at h
  · cases h
  · rename_i hw
    dsimp only at h
    split at h
    · cases h
    · rename_i s hs
      split at h
      · cases h
      · rename_i s' hs'
        cases h
        exact ⟨s, s', hs, hs', rfl, by omega, rfl⟩

/-- A step of a task. -/
theorem step_task {p p' : Daemon K} {act : TaskAct K} {items : List DaemonItem}
    (h : p.step L (.task i j act) = some (p', items)) :
    ∃ s t t' its, p.services[i]? = some s ∧ s.tasks[j]? = some t ∧ t.step L s.config act = some (t', its) ∧
      items = its.map (fun item => ⟨i, j, item⟩) ∧ p.occupied < p.workers ∧
      p' = { p with services := p.services.set i { s with tasks := s.tasks.set j t' } } := by
  unfold step at h
  split at h
  · cases h
  · rename_i hw
    dsimp only at h
    split at h
    · cases h
    · rename_i s hs
      split at h
      · cases h
      · rename_i t ht
        split at h
        · cases h
        · rename_i t' its ht'
          cases h
          exact ⟨s, t, t', its, hs, ht, ht', rfl, by omega, rfl⟩

theorem run_cons {p q : Daemon K} {a : DaemonAct K} {as : List (DaemonAct K)} {T : List DaemonItem}
    (h : p.run L (a :: as) = some (q, T)) :
    ∃ p' items T', p.step L a = some (p', items) ∧ p'.run L as = some (q, T') ∧ T = items ++ T' := by
  rw [run] at h
  split at h
  · cases h
  · rename_i p' items hp
    split at h
    · cases h
    · rename_i q' T' hq
      cases h
      exact ⟨p', items, T', hp, hq, rfl⟩

/-- A property of all reachable states. -/
theorem run_induct {P : Daemon K → List (DaemonAct K) → List DaemonItem → Prop}
    (hstep : ∀ {p p' : Daemon K} {as a T items}, P p as T → p.step L a = some (p', items) → P p' (as ++ [a]) (T ++ items))
    {p q : Daemon K} {bs as : List (DaemonAct K)} {U T : List DaemonItem} (hp : P p bs U)
    (h : p.run L as = some (q, T)) : P q (bs ++ as) (U ++ T) := by
  induction as generalizing p bs U T with
  | nil => cases h; simpa using hp
  | cons a as ih =>
    obtain ⟨p', items, T', h1, h2, rfl⟩ := run_cons h
    have := ih (hstep hp h1) h2
    simpa using this

end Daemon

/-- What is known about a task. -/
def Task.Fine (L : Lib) (config : ServiceConfig) (i j : Nat) (as : List (DaemonAct K)) (T : List DaemonItem) :
    Option (Task K) → Prop
  | none => taskItems i j T = [] ∧ talkActs i j as = []
  | some (.connecting tls) => taskItems i j T = [] ∧ talkActs i j as = [] ∧ tls.isSome = config.bindTls ∧
      ∀ t, tls = some t → .service i (.secured t) ∈ as
  | some (.handshaking tls) => taskItems i j T = [] ∧ talkActs i j as = [] ∧ tls.isSome = config.bindTls ∧
      (∀ t, tls = some t → .service i (.secured t) ∈ as) ∧ config.connectTls = true
  | some (.talking g q) => ∃ tc ts gc, (Proxy.start tc ts gc).run L g (talkActs i j as) = some (q, taskItems i j T) ∧
      FromHandshakes config i j as tc ts
  | some .failed | some .panicked => taskItems i j T = [] ∧ talkActs i j as = []

theorem FromHandshakes.snoc {config : ServiceConfig} {as : List (DaemonAct K)} {tc ts : Option (Tls K)}
    (h : FromHandshakes config i j as tc ts) (a : DaemonAct K) : FromHandshakes config i j (as ++ [a]) tc ts :=
  ⟨h.client, h.server, fun t ht => List.mem_append_left _ (h.clientHandshake t ht), fun t ht =>
    let ⟨gc, gs, hm⟩ := h.serverHandshake t ht
    ⟨gc, gs, List.mem_append_left _ hm⟩⟩

/-- Nothing happens to a task. -/
theorem Task.Fine.other {config : ServiceConfig} {as : List (DaemonAct K)} {T items : List DaemonItem} {t : Option (Task K)}
    {a : DaemonAct K} (h : Task.Fine L config i j as T t) (ha : talkActs i j [a] = []) (hi : taskItems i j items = []) :
    Task.Fine L config i j (as ++ [a]) (T ++ items) t := by
  have e1 : talkActs i j (as ++ [a]) = talkActs i j as := by rw [talkActs_append, ha, List.append_nil]
  have e2 : taskItems i j (T ++ items) = taskItems i j T := by rw [taskItems_append, hi, List.append_nil]
  cases t with
  | none => exact ⟨by rw [e2]; exact h.1, by rw [e1]; exact h.2⟩
  | some t =>
    cases t with
    | connecting tls =>
      exact ⟨by rw [e2]; exact h.1, by rw [e1]; exact h.2.1, h.2.2.1, fun t ht => List.mem_append_left _ (h.2.2.2 t ht)⟩
    | handshaking tls =>
      exact ⟨by rw [e2]; exact h.1, by rw [e1]; exact h.2.1, h.2.2.1, fun t ht => List.mem_append_left _ (h.2.2.2.1 t ht),
        h.2.2.2.2⟩
    | talking g q =>
      obtain ⟨tc, ts, gc, h1, h2⟩ := h
      exact ⟨tc, ts, gc, by rw [e1, e2]; exact h1, h2.snoc a⟩
    | failed => exact ⟨by rw [e2]; exact h.1, by rw [e1]; exact h.2⟩
    | panicked => exact ⟨by rw [e2]; exact h.1, by rw [e1]; exact h.2⟩

/-- A step of the task. -/
theorem Task.Fine.step {config : ServiceConfig} {as : List (DaemonAct K)} {T : List DaemonItem} {t t' : Task K}
    {act : TaskAct K} {its : List ProxyItem} (h : Task.Fine L config i j as T (some t))
    (hs : t.step L config act = some (t', its)) :
    Task.Fine L config i j (as ++ [.task i j act]) (T ++ its.map fun item => ⟨i, j, item⟩) (some t') := by
  unfold Task.step at hs
  split at hs
  · rename_i tls gc gs
    have a1 : talkActs i j (as ++ [.task i j (.connected gc gs)]) = [] := by
      rw [talkActs_append, h.2.1]; rfl
    have hm : ∀ t, tls = some t → .service i (.secured t) ∈ as ++ [.task i j (.connected gc gs)] :=
      fun t ht => List.mem_append_left _ (h.2.2.2 t ht)
    split at hs
    · split at hs
      · cases hs
        exact ⟨by rw [taskItems_append, h.1]; rfl, a1, h.2.2.1, hm, by assumption⟩
      · cases hs
        exact ⟨by rw [taskItems_append, h.1]; rfl, a1⟩
    · rename_i hc
      cases hs
      refine ⟨tls, none, gc, ?_, h.2.2.1, ?_, hm, nofun⟩
      · rw [a1, taskItems_append, h.1]; rfl
      · cases hb : config.connectTls
        · rfl
        · exact (hc hb).elim
  · cases hs
    exact ⟨by rw [taskItems_append, h.1]; rfl, by rw [talkActs_append, h.2.1]; rfl⟩
  · rename_i tls tls' gc gs
    cases hs
    refine ⟨tls, some tls', gc, ?_, h.2.2.1, h.2.2.2.2.symm, fun t ht => List.mem_append_left _ (h.2.2.2.1 t ht), ?_⟩
    · rw [talkActs_append, h.2.1, taskItems_append, h.1]; rfl
    · intro t ht
      cases ht
      exact ⟨gc, gs, by simp⟩
  · cases hs
    exact ⟨by rw [taskItems_append, h.1]; rfl, by rw [talkActs_append, h.2.1]; rfl⟩
  · rename_i g q act
    split at hs
    · cases hs
    · rename_i q' its' hq
      cases hs
      obtain ⟨tc, ts, gc, h1, h2⟩ := h
      refine ⟨tc, ts, gc, ?_, h2.snoc _⟩
      rw [talkActs_append, taskItems_append, taskItems_self]
      have : talkActs i j [DaemonAct.task (K := K) i j (.proxy act)] = [act] := by simp [talkActs, DaemonAct.talk?]
      rw [this]
      exact Proxy.run_snoc h1 hq
  · cases hs

/-- What is known about the process. -/
structure Daemon.Fine (L : Lib) (configs : List ServiceConfig) (workers : Nat) (p : Daemon K) (as : List (DaemonAct K))
    (T : List DaemonItem) : Prop where
  workers : p.workers = workers
  config : ∀ i : Nat, (p.services[i]?).map Service.config = configs[i]?
  accepting : ∀ (i : Nat) s, p.services[i]? = some s →
    (s.accepting = .handshaking ↔ s.config.bindTls = true ∧ handshakePending i as = true)
  tasks : ∀ (i : Nat) s, p.services[i]? = some s → ∀ j : Nat, Task.Fine L s.config i j as T (s.tasks[j]?)
  nowhere : ∀ i : Nat, p.services[i]? = none → ∀ j, taskItems i j T = [] ∧ talkActs i j as = []

theorem Daemon.start_fine (L : Lib) (configs : List ServiceConfig) (workers : Nat) :
    (Daemon.start (K := K) workers configs).Fine L configs workers [] [] := by
  have key : ∀ (i : Nat) s, (Daemon.start (K := K) workers configs).services[i]? = some s → s.accepting = .listening ∧ s.tasks = [] := by
    intro i s hs
    simp only [Daemon.start, List.getElem?_map, Option.map_eq_some_iff] at hs
    obtain ⟨c, -, rfl⟩ := hs
    exact ⟨rfl, rfl⟩
  refine ⟨rfl, ?_, ?_, ?_, fun _ _ _ => ⟨rfl, rfl⟩⟩
  · intro i
    simp only [Daemon.start, List.getElem?_map, Option.map_map]
    cases configs[i]? <;> rfl
  · intro i s hs
    rw [(key i s hs).1]
    simp [handshakePending]
  · intro i s hs j
    rw [(key i s hs).2]
    exact ⟨rfl, rfl⟩

theorem handshakePending_snoc (i : Nat) (as : List (DaemonAct K)) (a : DaemonAct K) :
    handshakePending i (as ++ [a]) =
      match a with
      | .service i' (.accepted true) => if i' = i then true else handshakePending i as
      | .service i' (.secured _) => if i' = i then false else handshakePending i as
      | .service i' .handshakeFailed => if i' = i then false else handshakePending i as
      | _ => handshakePending i as := by
  rw [handshakePending, List.foldl_append]
  rfl

/-- A step of the accept loop of another service or of a task does not concern the handshake. -/
theorem handshakePending_other {a : DaemonAct K} (h : a.target ≠ (i, none)) (as : List (DaemonAct K)) :
    handshakePending i (as ++ [a]) = handshakePending i as := by
  rw [handshakePending_snoc]
  split
  · rename_i i'; rw [if_neg]; rintro rfl; exact h rfl
  · rename_i i' _; rw [if_neg]; rintro rfl; exact h rfl
  · rename_i i'; rw [if_neg]; rintro rfl; exact h rfl
  · rfl

/-- A step of the accept loop. -/
theorem Service.step_cases {s s' : Service K} {act : ServiceAct K} (h : s.step act = some s') :
    s'.config = s.config ∧
    (s'.tasks = s.tasks ∨ ∃ tls, s'.tasks = s.tasks ++ [.connecting tls] ∧
      (tls = none ∧ s.config.bindTls = false ∧ act = .accepted true ∨
        tls = none ∧ s.config.bindTls = false ∧ act = .accepted false ∨
        ∃ t, tls = some t ∧ act = .secured t ∧ s.accepting = .handshaking)) ∧
    (s'.accepting = .handshaking ↔
      act = .accepted true ∧ s.config.bindTls = true ∨
      s.accepting = .handshaking ∧ (∀ t, act ≠ .secured t) ∧ act ≠ .handshakeFailed) := by
  unfold Service.step at h
  split at h
  · rename_i id
    split at h
    · rename_i ha
      split at h
      · rename_i hb
        split at h
        · rename_i hid
          cases h
          subst hid
          exact ⟨rfl, .inl rfl, by simp [hb]⟩
        · rename_i hid
          cases h
          refine ⟨rfl, .inl rfl, ?_⟩
          rw [ha]
          simp [hid]
      · rename_i hb
        cases h
        have hb : s.config.bindTls = false := by simpa using hb
        refine ⟨rfl, .inr ⟨none, rfl, ?_⟩, ?_⟩
        · cases id
          · exact .inr (.inl ⟨rfl, hb, rfl⟩)
          · exact .inl ⟨rfl, hb, rfl⟩
        · simp [ha, hb]
    · cases h
  · split at h
    · rename_i ha
      cases h
      exact ⟨rfl, .inl rfl, by simp [ha]⟩
    · cases h
  · rename_i t
    split at h
    · rename_i ha
      cases h
      exact ⟨rfl, .inr ⟨some t, rfl, .inr (.inr ⟨t, rfl, rfl, ha⟩)⟩, by simp⟩
    · cases h
  · split at h
    · rename_i ha
      cases h
      exact ⟨rfl, .inl rfl, by simp⟩
    · cases h

theorem Daemon.Fine.step {workers : Nat} {p p' : Daemon K} {as : List (DaemonAct K)} {a : DaemonAct K}
    {T items : List DaemonItem} (h : p.Fine L configs workers as T) (hs : p.step L a = some (p', items)) :
    p'.Fine L configs workers (as ++ [a]) (T ++ items) := by
  cases a with
  | service i act =>
    obtain ⟨s, s', h1, h2, rfl, -, rfl⟩ := step_service hs
    obtain ⟨c1, c2, c3⟩ := Service.step_cases h2
    have hlt : i < p.services.length := (List.getElem?_eq_some_iff.1 h1).1
    have get : ∀ i' : Nat, (p.services.set i s')[i']? = if i = i' then some s' else p.services[i']? := by
      intro i'
      rw [List.getElem?_set]
      split
      · simp
      · rfl
    have hta : ∀ i' j' : Nat, talkActs i' j' [DaemonAct.service i act] = [] := fun _ _ => rfl
    refine ⟨h.workers, ?_, ?_, ?_, ?_⟩
    · intro i'
      show ((p.services.set i s')[i']?).map _ = _
      rw [get, ← h.config i']
      split
      · rename_i hi; subst hi; simp [h1, c1]
      · rfl
    · intro i' x hx
      replace hx : (p.services.set i s')[i']? = some x := hx
      rw [get] at hx
      split at hx
      · rename_i hi
        subst hi
        cases hx
        rw [c3, c1, h.accepting i s h1, handshakePending_snoc]
        cases act with
        | accepted id =>
          cases id
          · simp
          · simp
            exact fun h _ => h
        | acceptFailed => simp
        | secured t => simp
        | handshakeFailed => simp
      · rename_i hi
        rw [handshakePending_other (by intro he; cases he; exact hi rfl)]
        exact h.accepting i' x hx
    · intro i' x hx j'
      replace hx : (p.services.set i s')[i']? = some x := hx
      rw [get] at hx
      split at hx
      · rename_i hi
        subst hi
        cases hx
        have old := h.tasks i s h1
        rw [c1]
        rcases c2 with e | ⟨tls, e, hcase⟩
        · rw [e]; exact (old j').other (hta _ _) rfl
        · rw [e, List.getElem?_append]
          split
          · exact (old j').other (hta _ _) rfl
          · rename_i hlen
            have hn : Task.Fine L s.config i j' as T none := by
              have := old j'
              rwa [List.getElem?_eq_none (by omega)] at this
            have hn' := hn.other (a := .service i act) (items := []) (hta _ _) rfl
            cases hk : j' - s.tasks.length with
            | zero =>
              refine ⟨hn'.1, hn'.2, ?_, ?_⟩
              · rcases hcase with ⟨rfl, hb, -⟩ | ⟨rfl, hb, -⟩ | ⟨t, rfl, -, ha⟩
                · rw [hb]; rfl
                · rw [hb]; rfl
                · rw [((h.accepting i s h1).1 ha).1]; rfl
              · rintro t rfl
                rcases hcase with ⟨hx, -⟩ | ⟨hx, -⟩ | ⟨t', hx, rfl, -⟩
                · cases hx
                · cases hx
                · cases hx; simp
            | succ k => exact hn'
      · exact (h.tasks i' x hx j').other (hta _ _) rfl
    · intro i' hx j'
      replace hx : (p.services.set i s')[i']? = none := hx
      rw [get] at hx
      split at hx
      · cases hx
      · rw [List.append_nil, talkActs_append, hta, List.append_nil]
        exact h.nowhere i' hx j'
  | task i j act =>
    obtain ⟨s, t, t', its, h1, h2, h3, rfl, -, rfl⟩ := step_task hs
    have hlt : i < p.services.length := (List.getElem?_eq_some_iff.1 h1).1
    have hlt' : j < s.tasks.length := (List.getElem?_eq_some_iff.1 h2).1
    have get : ∀ i' : Nat, (p.services.set i { s with tasks := s.tasks.set j t' })[i']? =
        if i = i' then some { s with tasks := s.tasks.set j t' } else p.services[i']? := by
      intro i'
      rw [List.getElem?_set]
      split
      · simp
      · rfl
    have hta : ∀ i' j' : Nat, ¬ (i = i' ∧ j = j') → talkActs i' j' [DaemonAct.task i j act] = [] := by
      intro i' j' hn
      rw [talkActs, List.filterMap_cons_none]
      · rfl
      · unfold DaemonAct.talk?
        split
        · rename_i heq
          cases heq
          rw [if_neg hn]
        · rfl
    refine ⟨h.workers, ?_, ?_, ?_, ?_⟩
    · intro i'
      show ((p.services.set i _)[i']?).map _ = _
      rw [get, ← h.config i']
      split
      · rename_i hi; subst hi; simp [h1]
      · rfl
    · intro i' x hx
      replace hx : (p.services.set i _)[i']? = some x := hx
      rw [get] at hx
      rw [handshakePending_other (by intro he; cases he)]
      split at hx
      · rename_i hi
        subst hi
        cases hx
        exact h.accepting i s h1
      · exact h.accepting i' x hx
    · intro i' x hx j'
      replace hx : (p.services.set i _)[i']? = some x := hx
      rw [get] at hx
      split at hx
      · rename_i hi
        subst hi
        cases hx
        have old := h.tasks i s h1 j'
        show Task.Fine L s.config i j' _ _ ((s.tasks.set j t')[j']?)
        rw [List.getElem?_set]
        split
        · rename_i hj
          subst hj
          rw [h2] at old
          exact old.step h3
        · rename_i hj
          exact old.other (hta _ _ fun hn => hj hn.2) (taskItems_other (fun hn => hj hn.2) _)
      · rename_i hi
        exact (h.tasks i' x hx j').other (hta _ _ fun hn => hi hn.1) (taskItems_other (fun hn => hi hn.1) _)
    · intro i' hx j'
      replace hx : (p.services.set i _)[i']? = none := hx
      rw [get] at hx
      split at hx
      · cases hx
      · rename_i hi
        rw [talkActs_append, hta _ _ fun hn => hi hn.1, List.append_nil, taskItems_append,
          taskItems_other (fun hn => hi hn.1), List.append_nil]
        exact h.nowhere i' hx j'

theorem Daemon.run_fine {workers : Nat} {p : Daemon K} {as : List (DaemonAct K)} {T : List DaemonItem}
    (h : (Daemon.start workers configs).run L as = some (p, T)) : p.Fine L configs workers as T := by
  have := run_induct (P := fun p as T => p.Fine L configs workers as T) (fun h hs => h.step hs)
    (start_fine L configs workers) h
  simpa using this

/-- At most as many elements satisfy `P` as there are positions of such elements. -/
theorem countP_le_positions {α : Type} (P : α → Bool) (l : List α) (ks : List Nat)
    (h : ∀ (k : Nat) a, l[k]? = some a → P a = true → k ∈ ks) : l.countP P ≤ ks.length := by
  induction l generalizing ks with
  | nil => simp
  | cons a l ih =>
    have hrest := ih ((ks.filter (· ≠ 0)).map (· - 1)) (fun k b hb hP => by
      have := h (k + 1) b (by simpa using hb) hP
      exact List.mem_map.2 ⟨k + 1, List.mem_filter.2 ⟨this, by simp⟩, rfl⟩)
    rw [List.length_map] at hrest
    rw [List.countP_cons]
    split
    · rename_i hP
      have h0 : 0 ∈ ks := h 0 a rfl hP
      have : (ks.filter (· ≠ 0)).length < ks.length := by
        rw [List.length_filter_lt_length_iff_exists]
        exact ⟨0, h0, by simp⟩
      omega
    · exact Nat.le_trans hrest (List.length_filter_le _ _)

/-- The same for a list of lists. -/
theorem countP_flatMap_le {α β : Type} (f : β → List α) (P : α → Bool) (l : List β) (ks : List (Nat × Nat))
    (h : ∀ (i j : Nat) b a, l[i]? = some b → (f b)[j]? = some a → P a = true → (i, j) ∈ ks) :
    (l.flatMap f).countP P ≤ ks.length := by
  induction l generalizing ks with
  | nil => simp
  | cons b l ih =>
    have h1 := countP_le_positions P (f b) ((ks.filter (·.1 = 0)).map (·.2)) (fun k a ha hP =>
      List.mem_map.2 ⟨(0, k), List.mem_filter.2 ⟨h 0 k b a rfl ha hP, by simp⟩, rfl⟩)
    have h2 := ih ((ks.filter (fun x => ¬ x.1 = 0)).map fun x => (x.1 - 1, x.2)) (fun i j b' a hb ha hP =>
      List.mem_map.2 ⟨(i + 1, j), List.mem_filter.2 ⟨h (i + 1) j b' a (by simpa using hb) ha hP, by simp⟩, rfl⟩)
    rw [List.length_map] at h1 h2
    have h3 : (ks.filter (·.1 = 0)).length + (ks.filter (fun x => ¬ x.1 = 0)).length = ks.length := by
      clear h h1 h2 ih
      induction ks with
      | nil => rfl
      | cons k ks ih =>
        by_cases hk : k.1 = 0 <;> simp [hk] at ih ⊢ <;> omega
    rw [List.flatMap_cons, List.countP_append]
    omega

theorem nodup_map_of_inj {α β : Type} {f : α → β} {l : List α} (hl : l.Nodup)
    (h : ∀ x ∈ l, ∀ y ∈ l, f x = f y → x = y) : (l.map f).Nodup := by
  rw [List.nodup_iff_pairwise_ne, List.pairwise_map]
  exact (List.nodup_iff_pairwise_ne.1 hl).imp_of_mem fun hx hy hne he => hne (h _ hx _ hy he)

theorem nodup_length_le_of_zero {ks : List Nat} (hk : ks.Nodup) (l : Nat) (hl : (ks.filter (· ≠ 0)).length ≤ l) :
    ks.length ≤ l + 1 := by
  have h0 : (ks.filter (· = 0)).length ≤ 1 := by
    have hn : (ks.filter (· = 0)).Nodup := hk.filter _
    match hf : ks.filter (· = 0) with
    | [] => rw [hf]; simp
    | [_] => rw [hf]; simp
    | x :: y :: r =>
      have hx : x ∈ ks.filter (· = 0) := by rw [hf]; simp
      have hy : y ∈ ks.filter (· = 0) := by rw [hf]; simp
      rw [hf] at hn
      simp only [List.mem_filter, decide_eq_true_eq] at hx hy
      rw [hx.2, hy.2] at hn
      simp at hn
  have h3 : (ks.filter (· = 0)).length + (ks.filter (· ≠ 0)).length = ks.length := by
    clear hk hl h0
    induction ks with
    | nil => rfl
    | cons k ks ih =>
      by_cases hk : k = 0 <;> simp [hk] at ih ⊢ <;> omega
  omega

/-- At least as many elements satisfy `P` as there are different positions of such elements. -/
theorem positions_le_countP {α : Type} (P : α → Bool) (l : List α) (ks : List Nat) (hk : ks.Nodup)
    (h : ∀ k ∈ ks, ∃ a, l[k]? = some a ∧ P a = true) : ks.length ≤ l.countP P := by
  induction l generalizing ks with
  | nil =>
    cases ks with
    | nil => simp
    | cons k ks => obtain ⟨a, ha, -⟩ := h k (by simp); simp at ha
  | cons a l ih =>
    have hrest := ih ((ks.filter (· ≠ 0)).map (· - 1))
      (nodup_map_of_inj (hk.filter _) (fun x hx y hy e => by
        simp only [ne_eq, decide_not, List.mem_filter, Bool.not_eq_eq_eq_not, Bool.not_true, decide_eq_false_iff_not] at hx hy
        omega))
      (fun k hkm => by
        obtain ⟨x, hx, rfl⟩ := List.mem_map.1 hkm
        obtain ⟨hx, hx0⟩ := List.mem_filter.1 hx
        obtain ⟨b, hb, hP⟩ := h x hx
        cases x with
        | zero => simp at hx0
        | succ x => exact ⟨b, by simpa using hb, hP⟩)
    rw [List.length_map] at hrest
    rw [List.countP_cons]
    split
    · exact nodup_length_le_of_zero hk _ hrest
    · rename_i hP
      have h0 : 0 ∉ ks := fun h0 => by
        obtain ⟨b, hb, hPb⟩ := h 0 h0
        cases hb
        exact hP hPb
      have : ks.filter (· ≠ 0) = ks := List.filter_eq_self.2 fun x hx => by
        have : x ≠ 0 := fun e => h0 (e ▸ hx)
        simpa using this
      rw [this] at hrest
      exact hrest

/-- The same for a list of lists. -/
theorem le_countP_flatMap {α β : Type} (f : β → List α) (P : α → Bool) (l : List β) (ks : List (Nat × Nat)) (hk : ks.Nodup)
    (h : ∀ x ∈ ks, ∃ b a, l[x.1]? = some b ∧ (f b)[x.2]? = some a ∧ P a = true) : ks.length ≤ (l.flatMap f).countP P := by
  induction l generalizing ks with
  | nil =>
    cases ks with
    | nil => simp
    | cons k ks => obtain ⟨b, a, hb, -⟩ := h k (by simp); simp at hb
  | cons b l ih =>
    have h1 := positions_le_countP P (f b) ((ks.filter (·.1 = 0)).map (·.2))
      (nodup_map_of_inj (hk.filter _) (fun x hx y hy e => by
        simp only [List.mem_filter, decide_eq_true_eq] at hx hy
        exact Prod.ext (hx.2.trans hy.2.symm) e))
      (fun k hkm => by
        obtain ⟨x, hx, rfl⟩ := List.mem_map.1 hkm
        simp only [List.mem_filter, decide_eq_true_eq] at hx
        obtain ⟨b', a, hb, ha, hP⟩ := h x hx.1
        rw [hx.2] at hb
        cases hb
        exact ⟨a, ha, hP⟩)
    have h2 := ih ((ks.filter (fun x => ¬ x.1 = 0)).map fun x => (x.1 - 1, x.2))
      (nodup_map_of_inj (hk.filter _) (fun x hx y hy e => by
        simp only [List.mem_filter, decide_eq_true_eq] at hx hy
        simp only [Prod.mk.injEq] at e
        exact Prod.ext (by omega) e.2))
      (fun k hkm => by
        obtain ⟨x, hx, rfl⟩ := List.mem_map.1 hkm
        simp only [List.mem_filter, decide_eq_true_eq] at hx
        obtain ⟨b', a, hb, ha, hP⟩ := h x hx.1
        refine ⟨b', a, ?_, ha, hP⟩
        obtain ⟨x1, x2⟩ := x
        cases x1 with
        | zero => exact (hx.2 rfl).elim
        | succ x1 => simpa using hb)
    rw [List.length_map] at h1 h2
    have h3 : (ks.filter (·.1 = 0)).length + (ks.filter (fun x => ¬ x.1 = 0)).length = ks.length := by
      clear h h1 h2 ih hk
      induction ks with
      | nil => rfl
      | cons k ks ih =>
        by_cases hk : k.1 = 0 <;> simp [hk] at ih ⊢ <;> omega
    rw [List.flatMap_cons, List.countP_append]
    omega

end ImapFlow
