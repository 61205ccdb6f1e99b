import Verif.Proofs.ProxyWire

/-!
# The step in which the proxy panics makes no calls
-/

namespace ImapFlow

variable {K : Type} {L : Lib}

section
variable {σ ε ev ι : Type}

theorem FullStream.Advanced.no_calls {M : Machine σ ε ev ι} {c c' : FullStream K σ} {T : List (FullItem ε ev ι)}
    (h : FullStream.Advanced M c c' T) : streamCalls (streamPart T) = [] := by
  have hp : ∀ {b s s1 D} (r : Except (Interrupt ε) ev) (E : List (StreamItem ε ev ι)), Provides M b s s1 D →
      streamCalls E = [] → streamCalls (D ++ .poll r :: E) = [] := by
    rintro b s s1 D r E (⟨-, -, rfl⟩ | ⟨-, -, rfl⟩) hE
    · simpa [streamCalls, StreamItem.call?] using hE
    · simpa [streamCalls, StreamItem.call?] using hE
  cases h with
  | hung => rfl
  | broken => rfl
  | inputPanic => rfl
  | nextPanic h1 h2 =>
    rcases h2 with ⟨-, -, rfl⟩ | ⟨-, -, rfl⟩ <;> rfl
  | @returned _ _ _ _ _ _ r h1 h2 =>
    rw [streamPart_map]
    exact hp _ _ h2 (by rcases r with (_ | _) | _ <;> rfl)
  | waits h1 h2 =>
    rw [streamPart_map]
    exact hp _ _ h2 rfl
  | refused h1 h2 =>
    rw [streamPart_append, streamPart_map, streamCalls_append, hp _ _ h2 rfl]
    rfl

variable {M : Machine σ ε ev ι} {c c' : FullStream K σ} {I : List (FullItem ε ev ι)}

theorem FullStream.io_head {a : IoAct} (h : c.step M a.toStream = some (c', I)) (op : ι) : I.head? ≠ some (.stream (.user op)) := by
  intro hm
  cases a with
  | poll =>
    simp only [IoAct.toStream, step] at h
    split at h
    · cases h; cases hm
    · cases h
  | read b =>
    simp only [IoAct.toStream, step] at h
    split at h
    all_goals first
      | (unfold completeRead at h
         simp only at h
         split at h
         all_goals (cases h; cases hm))
      | cases h
  | write n =>
    simp only [IoAct.toStream, step] at h
    split at h
    · split at h
      · unfold completeWrite at h
        simp only at h
        split at h
        · cases h; cases hm
        · split at h
          all_goals (cases h; cases hm)
      · unfold completeFlush at h
        simp only at h
        split at h
        · cases h; cases hm
        · split at h
          all_goals (cases h; cases hm)
      · cases h
    · cases h
  | fail =>
    simp only [IoAct.toStream, step] at h
    split at h
    all_goals first
      | (cases h; cases hm; done)
      | cases h

theorem FullStream.io_users {a : IoAct} (h : c.step M a.toStream = some (c', I)) (op : ι) : .stream (.user op) ∉ I := by
  intro hm
  have hh := FullStream.io_head h
  have h1 : op ∈ streamCalls (streamPart I) :=
    List.mem_filterMap.mpr ⟨_, List.mem_filterMap.mpr ⟨_, hm, rfl⟩, rfl⟩
  have h2 : streamCalls (streamPart I) = [] := by
    cases FullStream.step_cases h with
    | user => exact absurd rfl (hh _)
    | userPanic => exact absurd rfl (hh _)
    | callNext _ h2 => simpa [streamPart, FullItem.stream?, streamCalls, StreamItem.call?] using h2.no_calls
    | read _ _ h2 => simpa [streamPart, FullItem.stream?, streamCalls, StreamItem.call?] using h2.no_calls
    | written _ _ _ h2 => simpa [streamPart, FullItem.stream?, streamCalls, StreamItem.call?] using h2.no_calls
    | wrote _ _ _ h2 =>
      rw [streamPart_map]
      rcases h2 with ⟨-, rfl, -⟩ | ⟨-, -, rfl, -⟩ <;> rfl
    | flush _ _ h2 =>
      rw [streamPart_map]
      rcases h2 with ⟨-, rfl, -⟩ | ⟨-, rfl, -⟩ <;> rfl
    | ended _ h2 =>
      rcases h2 with ⟨-, rfl, rfl⟩ | ⟨-, rfl, rfl⟩ | ⟨-, rfl, rfl⟩ | ⟨-, rfl, rfl⟩ | ⟨-, rfl, rfl⟩ <;> rfl
    | dropped => rfl
  rw [h2] at h1
  cases h1

end

theorem users_ofClient {I : List (FullItem ServerError ServerEvent ServerOp)} (h : ∀ op, .stream (.user op) ∉ I) :
    (∀ op, .client (.user op) ∉ I.map ProxyItem.ofClient) ∧ ∀ op, .server (.user op) ∉ I.map ProxyItem.ofClient := by
  constructor <;>
  · intro op hm
    obtain ⟨x, hx, he⟩ := List.mem_map.1 hm
    cases x with
    | stream j => cases he <;> exact h _ hx
    | _ => cases he

theorem users_ofServer {I : List (FullItem ClientError ClientEvent ClientOp)} (h : ∀ op, .stream (.user op) ∉ I) :
    (∀ op, .client (.user op) ∉ I.map ProxyItem.ofServer) ∧ ∀ op, .server (.user op) ∉ I.map ProxyItem.ofServer := by
  constructor <;>
  · intro op hm
    obtain ⟨x, hx, he⟩ := List.mem_map.1 hm
    cases x with
    | stream j => cases he <;> exact h _ hx
    | _ => cases he

/-- A step in which the proxy panics makes no calls. -/
theorem Proxy.step_dead {p : Proxy K} {gs : HandleGenerator} {a : ProxyAct} {D : List ProxyItem}
    (h : p.step L gs a = some (.dead, D)) : (∀ op, .client (.user op) ∉ D) ∧ ∀ op, .server (.user op) ∉ D := by
  have key : ∀ {A B : List ProxyItem}, ((∀ op, .client (.user op) ∉ A) ∧ ∀ op, .server (.user op) ∉ A) →
      ((∀ op, .client (.user op) ∉ B) ∧ ∀ op, .server (.user op) ∉ B) →
      (∀ op, .client (.user op) ∉ A ++ B) ∧ ∀ op, .server (.user op) ∉ A ++ B := by
    intro A B hA hB
    constructor <;> intro op hm <;> rcases List.mem_append.1 hm with hm | hm
    · exact hA.1 op hm
    · exact hB.1 op hm
    · exact hA.2 op hm
    · exact hB.2 op hm
  have pan : ∀ q : Panic, (∀ op, ProxyItem.client (.user op) ∉ [.panicked q]) ∧ ∀ op, ProxyItem.server (.user op) ∉ [.panicked q] := by
    intro q; simp
  unfold step at h
  split at h
  · split at h
    · cases h
    · next s I h1 =>
      have hI := users_ofServer (FullStream.io_users h1)
      simp only at h
      split at h
      · cases h; exact hI
      · split at h
        · cases h
        · split at h
          · cases h
          · split at h
            · cases h; exact key hI (pan _)
            · next hg =>
              simp only [Option.some.injEq, Prod.mk.injEq] at h
              obtain ⟨-, rfl⟩ := h
              exact hI
  · split at h
    · cases h
    · next s I h1 =>
      have hI := users_ofClient (FullStream.io_users h1)
      simp only at h
      split at h
      · cases h; exact hI
      · split at h
        · cases h
        · split at h
          · cases h
          · simp only [Option.some.injEq, Prod.mk.injEq] at h
            obtain ⟨h2, rfl⟩ := h
            refine key hI ?_
            unfold clientBranch at h2 ⊢
            simp only at h2 ⊢
            split at h2
            · refine key (users_ofServer ?_) (pan _)
              intro op
              unfold FullStream.dropFuture
              split <;> simp
            · split at h2 <;> cases h2
  · split at h
    · cases h
    · next s I h1 =>
      have hI := users_ofServer (FullStream.io_users h1)
      simp only at h
      split at h
      · cases h; exact hI
      · split at h
        · cases h
        · split at h
          · cases h
          · simp only [Option.some.injEq, Prod.mk.injEq] at h
            obtain ⟨h2, rfl⟩ := h
            refine key hI ?_
            unfold serverBranch at h2 ⊢
            simp only at h2 ⊢
            split at h2
            · refine key (users_ofClient ?_) (pan _)
              intro op
              unfold FullStream.dropFuture
              split <;> simp
            · split at h2 <;> cases h2
  · cases h

theorem Proxy.run_last {gs : HandleGenerator} {as : List ProxyAct} {a : ProxyAct} {p q : Proxy K} {T : List ProxyItem}
    (h : p.run L gs (as ++ [a]) = some (q, T)) :
    ∃ p1 T1 D, p.run L gs as = some (p1, T1) ∧ p1.step L gs a = some (q, D) ∧ T = T1 ++ D := by
  induction as generalizing p T with
  | nil =>
    simp only [List.nil_append, Proxy.run] at h
    cases h1 : p.step L gs a with
    | none => rw [h1] at h; cases h
    | some x =>
      rw [h1] at h
      simp only [Option.some.injEq, Prod.mk.injEq, List.append_nil] at h
      obtain ⟨rfl, rfl⟩ := h
      exact ⟨p, [], x.2, rfl, h1, rfl⟩
  | cons b as ih =>
    simp only [List.cons_append, Proxy.run] at h
    cases h1 : p.step L gs b with
    | none => rw [h1] at h; cases h
    | some x =>
      obtain ⟨p1, I⟩ := x
      rw [h1] at h
      simp only at h
      cases h2 : p1.run L gs (as ++ [a]) with
      | none => rw [h2] at h; cases h
      | some y =>
        obtain ⟨p2, J⟩ := y
        rw [h2] at h
        simp only [Option.some.injEq, Prod.mk.injEq] at h
        obtain ⟨rfl, rfl⟩ := h
        obtain ⟨p3, T1, D, e1, e2, rfl⟩ := ih h2
        exact ⟨p3, I ++ T1, D, by simp only [Proxy.run, h1, e1], e2, by rw [List.append_assoc]⟩

/-- Whether or not the proxy has panicked, the calls on its server are a beginning of those that belong to the events. -/
theorem Proxy.run_answers {tc ts : Option (Tls K)} {gc gs : HandleGenerator} {as : List ProxyAct} {T : List ProxyItem} {p : Proxy K}
    (hL : L.Lawful) (hP : L.Proxyable) (h : (Proxy.start tc ts gc).run L gs as = some (p, T)) : madeAnswers T <+: dueAnswers T := by
  by_cases hp : p = .dead
  · subst hp
    rcases List.eq_nil_or_concat as with rfl | ⟨as', a, rfl⟩
    · simp [Proxy.run, Proxy.start] at h
    · rw [List.concat_eq_append] at h
      obtain ⟨p1, T1, D, h1, h2, rfl⟩ := Proxy.run_last h
      have hp1 : p1 ≠ .dead := by
        rintro rfl
        cases a <;> cases h2
      have hD : madeAnswers D = [] := by
        refine List.eq_nil_iff_forall_not_mem.mpr fun op hm => ?_
        obtain ⟨i, hi, he⟩ := List.mem_filterMap.mp hm
        obtain ⟨x, hx, hy⟩ := List.mem_filterMap.mp hi
        cases i with
        | user op' =>
          cases x with
          | client i => cases hy; exact (Proxy.step_dead h2).1 _ hx
          | _ => cases hy
        | _ => cases he
      have e1 : madeAnswers (T1 ++ D) = madeAnswers T1 ++ madeAnswers D := by
        simp [madeAnswers, streamCalls, clientSide]
      have e2 : dueAnswers (T1 ++ D) = dueAnswers T1 ++ dueAnswers D := by
        simp [dueAnswers, streamEvents, serverSide]
      rw [e1, e2, hD, List.append_nil, (Proxy.run_ledger hL hP h1 hp1).answers]
      exact List.prefix_append ..
  · rw [(Proxy.run_ledger hL hP h hp).answers]
    exact List.prefix_refl _

end ImapFlow
