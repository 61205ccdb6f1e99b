import Verif.Proofs.RelayUse

/-!
# Through the proxy: why the conversation ends
-/

namespace ImapFlow

variable {K : Type} {L : Lib}

namespace FullStream

variable {σ ε ev ι : Type}

/-- Why `next` returns an error. -/
def ErrorReason (T : List (FullItem ε ev ι)) : StreamError ε → Prop
  | .closed => .stream (.read []) ∈ T ∨ .stream (.wrote []) ∈ T
  | .io => .stream .failed ∈ T ∨ .refused ∈ T
  | .tls => .broken ∈ T
  | .state e => .stream (.poll (.error (.error e))) ∈ T

theorem ErrorReason.mono {T T' : List (FullItem ε ev ι)} {e : StreamError ε} (h : ErrorReason T e) (hT : ∀ i ∈ T, i ∈ T') :
    ErrorReason T' e := by
  cases e with
  | closed => exact h.imp (hT _) (hT _)
  | io => exact h.imp (hT _) (hT _)
  | tls => exact hT _ h
  | state e => exact hT _ h

/-- The result of `next`. -/
def Outcome (T : List (FullItem ε ev ι)) : Except (StreamError ε) ev → Prop
  | .ok e => ImapFlow.events (streamPart T) = [e]
  | .error e => ErrorReason T e

theorem Advanced.outcome {M : Machine σ ε ev ι} {c c' : FullStream K σ} {T : List (FullItem ε ev ι)}
    (h : Advanced M c c' T) {r : Except (StreamError ε) ev} (hr : nextResult T = some r) : Outcome T r := by
  have hD : ∀ {b s s1} {D : List (StreamItem ε ev ι)}, Provides M b s s1 D → D = [] ∨ D = [.deliver b] := by
    rintro b s s1 D (⟨-, -, rfl⟩ | ⟨-, -, rfl⟩)
    · exact .inl rfl
    · exact .inr rfl
  cases h with
  | hung => simp [nextResult] at hr
  | broken => simp [nextResult] at hr; subst hr; simp [Outcome, ErrorReason]
  | inputPanic => simp [nextResult] at hr
  | nextPanic h1 h2 => rcases hD h2 with rfl | rfl <;> simp [nextResult] at hr
  | @returned _ _ _ D _ _ r' h1 h2 h3 h4 =>
    rcases r' with (io | e) | e
    · exact (h4 io rfl).elim
    · rcases hD h2 with rfl | rfl <;> simp [nextResult, returns] at hr <;> subst hr <;> simp [Outcome, ErrorReason]
    · rcases hD h2 with rfl | rfl <;> simp [nextResult, returns] at hr <;> subst hr <;> rfl
  | waits h1 h2 => rcases hD h2 with rfl | rfl <;> simp [nextResult] at hr
  | refused h1 h2 =>
    rcases hD h2 with rfl | rfl <;> simp [nextResult] at hr <;> subst hr <;> simp [Outcome, ErrorReason]

theorem Outcome.cons {T : List (FullItem ε ev ι)} {r : Except (StreamError ε) ev} (h : Outcome T r)
    {x : StreamItem ε ev ι} (hx : ImapFlow.events [x] = []) : Outcome (.stream x :: T) r := by
  cases r with
  | error e => exact ErrorReason.mono h fun i hi => List.mem_cons_of_mem _ hi
  | ok e =>
    have : ImapFlow.events (streamPart (.stream x :: T)) = ImapFlow.events [x] ++ ImapFlow.events (streamPart T) := by
      rw [streamPart_cons]
      unfold ImapFlow.events
      rw [← List.filterMap_append]; rfl
    simp only [Outcome, this, hx, List.nil_append]
    exact h

theorem Stepped.outcome {M : Machine σ ε ev ι} {c c' : FullStream K σ} {T : List (FullItem ε ev ι)}
    (h : Stepped M c c' T) {r : Except (StreamError ε) ev} (hr : nextResult T = some r) : Outcome T r := by
  cases h with
  | user => simp [nextResult] at hr
  | userPanic => simp [nextResult] at hr
  | callNext h1 h2 => exact (h2.outcome (by simpa [nextResult] using hr)).cons rfl
  | read h1 h2 h3 => exact (h3.outcome (by simpa [nextResult] using hr)).cons rfl
  | written h1 h2 h3 h4 => exact (h4.outcome (by simpa [nextResult] using hr)).cons rfl
  | wrote h1 h2 h3 h4 => rcases h4 with ⟨-, rfl, -⟩ | ⟨-, -, rfl, -⟩ <;> simp [nextResult] at hr
  | flush h1 h2 h3 => rcases h3 with ⟨-, rfl, -⟩ | ⟨-, rfl, -⟩ <;> simp [nextResult] at hr
  | ended h1 h2 =>
    rcases h2 with ⟨-, rfl, rfl⟩ | ⟨-, rfl, rfl⟩ | ⟨-, rfl, rfl⟩ | ⟨-, rfl, rfl⟩ | ⟨-, rfl, rfl⟩ <;>
      simp [nextResult] at hr <;> subst hr <;> simp [Outcome, ErrorReason]
  | dropped => simp [nextResult] at hr

/-- Without a result there is no event. -/
theorem Stepped.no_event {M : Machine σ ε ev ι} {c c' : FullStream K σ} {T : List (FullItem ε ev ι)}
    (_ : Stepped M c c' T) (hr : nextResult T = none) : ImapFlow.events (streamPart T) = [] := by
  unfold ImapFlow.events
  rw [List.filterMap_eq_nil_iff]
  intro i hi
  obtain ⟨x, hx, hxi⟩ := List.mem_filterMap.1 hi
  unfold nextResult at hr
  rw [List.findSome?_eq_none_iff] at hr
  have := hr x hx
  cases x with
  | stream y =>
    cases hxi
    cases i with
    | returned r => cases this
    | _ => rfl
  | _ => cases hxi

end FullStream

/-- An item of the end or the failure of a socket. -/
def StreamItem.SocketEnd {ε ev ι : Type} : StreamItem ε ev ι → Prop
  | .read [] | .wrote [] | .failed => True
  | _ => False

/-- Why a conversation is over. -/
def Proxy.Reason (T : List ProxyItem) : Prop :=
  (∃ i, .client i ∈ T ∧ i.SocketEnd) ∨ (∃ i, .server i ∈ T ∧ i.SocketEnd) ∨
  (∃ i, .clientTls i ∈ T ∨ .serverTls i ∈ T) ∨ (∃ e, .server (.poll (.error (.error e))) ∈ T) ∨
  ∃ e, streamEvents (serverSide T) = [e] ∧ ∀ g, e ≠ .greetingReceived g

/-- What is known at a state of the proxy. -/
def Proxy.Ending (p : Proxy K) (T : List ProxyItem) : Prop :=
  match p with
  | .greeting .. => streamEvents (serverSide T) = []
  | .over => Proxy.Reason T
  | _ => True

theorem client_reason {T : List ProxyItem} {I : List (FullItem ServerError ServerEvent ServerOp)}
    (hI : ∀ i ∈ I, ProxyItem.ofClient i ∈ T) {e : StreamError ServerError} (h : FullStream.ErrorReason I e)
    (he : ∀ x, e ≠ .state x) : Proxy.Reason T := by
  cases e with
  | closed =>
    rcases h with h | h
    · exact .inl ⟨_, hI _ h, trivial⟩
    · exact .inl ⟨_, hI _ h, trivial⟩
  | io =>
    rcases h with h | h
    · exact .inl ⟨_, hI _ h, trivial⟩
    · exact .inr (.inr (.inl ⟨_, .inl (hI _ h)⟩))
  | tls => exact .inr (.inr (.inl ⟨_, .inl (hI _ h)⟩))
  | state x => exact (he x rfl).elim

theorem server_reason {T : List ProxyItem} {I : List (FullItem ClientError ClientEvent ClientOp)}
    (hI : ∀ i ∈ I, ProxyItem.ofServer i ∈ T) {e : StreamError ClientError} (h : FullStream.ErrorReason I e) :
    Proxy.Reason T := by
  cases e with
  | closed =>
    rcases h with h | h
    · exact .inr (.inl ⟨_, hI _ h, trivial⟩)
    · exact .inr (.inl ⟨_, hI _ h, trivial⟩)
  | io =>
    rcases h with h | h
    · exact .inr (.inl ⟨_, hI _ h, trivial⟩)
    · exact .inr (.inr (.inl ⟨_, .inr (hI _ h)⟩))
  | tls => exact .inr (.inr (.inl ⟨_, .inr (hI _ h)⟩))
  | state x => exact .inr (.inr (.inr (.inl ⟨x, hI _ h⟩)))

theorem handleClientEvent_abort {r : Except (StreamError ServerError) ServerEvent} {c c' : Client} {calls : List ClientOp}
    (h : handleClientEvent L r c = .ok (c', calls, .abort)) : ∃ e, r = .error e ∧ ∀ x, e ≠ .state x := by
  rcases r with (_ | _ | _ | x) | e
  · exact ⟨_, rfl, fun x hx => by cases hx⟩
  · exact ⟨_, rfl, fun x hx => by cases hx⟩
  · exact ⟨_, rfl, fun x hx => by cases hx⟩
  · cases h
  · exfalso
    unfold handleClientEvent at h
    repeat' split at h
    all_goals first | contradiction | cases h

theorem handleServerEvent_abort {r : Except (StreamError ClientError) ClientEvent} {c c' : Server} {calls : List ServerOp}
    (h : handleServerEvent L r c = .ok (c', calls, .abort)) : ∃ e, r = .error e ∧ ∀ x, e ≠ .state x := by
  rcases r with (_ | _ | _ | x) | e
  · exact ⟨_, rfl, fun x hx => by cases hx⟩
  · exact ⟨_, rfl, fun x hx => by cases hx⟩
  · exact ⟨_, rfl, fun x hx => by cases hx⟩
  · cases h
  · exfalso
    unfold handleServerEvent at h
    repeat' split at h
    all_goals first | contradiction | cases h

theorem serverSide_map (I : List (FullItem ClientError ClientEvent ClientOp)) :
    serverSide (I.map ProxyItem.ofServer) = streamPart I := by
  unfold serverSide streamPart
  rw [List.filterMap_map]
  refine filterMap_congr' fun i _ => ?_
  cases i <;> rfl

theorem Proxy.step_ending {g : HandleGenerator} {p p' : Proxy K} {a : ProxyAct} {T items : List ProxyItem}
    (h : p.Ending T) (hs : p.step L g a = some (p', items)) : p'.Ending (T ++ items) := by
  have ev : ∀ (I : List (FullItem ClientError ClientEvent ClientOp)), streamEvents (serverSide T) = [] →
      streamEvents (serverSide (T ++ I.map ProxyItem.ofServer)) = events (streamPart I) := by
    intro I h
    have : serverSide (T ++ I.map ProxyItem.ofServer) = serverSide T ++ streamPart I := by
      rw [← serverSide_map]; simp [serverSide]
    rw [this, events_eq]
    unfold streamEvents at h ⊢
    rw [List.filterMap_append, h, List.nil_append]
  unfold Proxy.step at hs
  split at hs
  · rename_i ct s act
    have h : streamEvents (serverSide T) = [] := h
    split at hs
    · cases hs
    rename_i s' I hst
    have hst := FullStream.step_cases hst
    simp only at hs
    split at hs
    · cases hs; trivial
    split at hs
    · cases hs; trivial
    split at hs
    · rename_i hn
      cases hs
      exact (ev I h).trans (hst.no_event hn)
    · rename_i r hn
      have ho := hst.outcome hn
      split at hs
      · cases hs; trivial
      · rename_i q hq
        cases hs
        unfold afterGreeting at hq
        split at hq
        · split at hq
          · cases hq
          · cases hq; trivial
        · rename_i e hne
          cases hq
          refine .inr (.inr (.inr (.inr ⟨e, (ev I h).trans ho, fun g hg => ?_⟩)))
          subst hg
          exact hne _ rfl
        · cases hq
          exact server_reason (I := I) (fun i hi => List.mem_append_right _ (List.mem_map.2 ⟨i, hi, rfl⟩)) ho
  · rename_i c s act
    split at hs
    · cases hs
    rename_i c' I hst
    have hst := FullStream.step_cases hst
    simp only at hs
    split at hs
    · cases hs; trivial
    split at hs
    · cases hs; trivial
    split at hs
    · cases hs; trivial
    · rename_i r hn
      have ho := hst.outcome hn
      cases hs
      unfold clientBranch
      simp only
      split
      · trivial
      · rename_i hh
        split
        · obtain ⟨e, rfl, he⟩ := handleClientEvent_abort hh
          exact client_reason (I := I)
            (fun i hi => List.mem_append_right _ (List.mem_append_left _ (List.mem_map.2 ⟨i, hi, rfl⟩))) ho he
        · trivial
  · rename_i c s act
    split at hs
    · cases hs
    rename_i s' I hst
    have hst := FullStream.step_cases hst
    simp only at hs
    split at hs
    · cases hs; trivial
    split at hs
    · cases hs; trivial
    split at hs
    · cases hs; trivial
    · rename_i r hn
      have ho := hst.outcome hn
      cases hs
      unfold serverBranch
      simp only
      split
      · trivial
      · rename_i hh
        split
        · obtain ⟨e, rfl, he⟩ := handleServerEvent_abort hh
          exact server_reason (I := I)
            (fun i hi => List.mem_append_right _ (List.mem_append_left _ (List.mem_map.2 ⟨i, hi, rfl⟩))) ho
        · trivial
  · cases hs

theorem Proxy.run_ending {g : HandleGenerator} {p p' : Proxy K} {as : List ProxyAct} {T items : List ProxyItem}
    (h : p.Ending T) (hs : p.run L g as = some (p', items)) : p'.Ending (T ++ items) := by
  induction as generalizing p T items with
  | nil => cases hs; simpa using h
  | cons a as ih =>
    simp only [Proxy.run] at hs
    split at hs
    · cases hs
    rename_i p1 I1 h1
    split at hs
    · cases hs
    rename_i p2 I2 h2
    cases hs
    rw [← List.append_assoc]
    exact ih (Proxy.step_ending h h1) h2

end ImapFlow
