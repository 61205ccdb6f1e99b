import Verif.Spec.Reserve
import Verif.Spec.Imap
import Verif.Proofs.SearchClient

/-!
# How much memory is asked for
-/

namespace ImapFlow

namespace Server

variable {L : Lib}

theorem progressSend_options {s s1 : Server} {r : Except (Interrupt ServerError) (Option ServerEvent)}
    (h : progressSend L s = (s1, r)) : s1.options = s.options := by
  unfold progressSend at h
  split at h <;> (simp only [Prod.mk.injEq] at h; rw [← h.1])

theorem progressReceive_options {s s1 : Server} {r : Except (Interrupt ServerError) (Option ServerEvent)}
    (h : progressReceive L s = .ok (s1, r)) : s1.options = s.options := by
  unfold progressReceive at h
  split at h
  · split at h
    · cases h
    · unfold commandDecoded at h
      split at h
      · cases h
      · split at h
        · split at h
          · cases h
          · cases h; rfl
        · split at h
          · cases h
          · cases h; rfl
        · cases h; rfl
    · cases h; rfl
    · unfold literalFound at h
      split at h
      · split at h
        · split at h
          · cases h
          · dsimp only at h
            split at h
            · cases h
            · cases h; rfl
        · split at h
          · cases h
          · cases h; rfl
      · dsimp only at h
        split at h
        · split at h
          · cases h
          · split at h
            · cases h
            · cases h; rfl
        · cases h; rfl
    all_goals
      unfold discardCommand at h
      split at h
      · cases h
      · cases h; rfl
  · split at h
    · cases h
    · cases h; rfl
    · cases h; rfl
  · cases h; rfl
  · split at h
    · cases h
    · cases h; rfl
    · split at h
      · cases h
      · cases h; rfl
  · cases h

/-- A literal that is accepted is not too long. -/
theorem progressReceive_asked {s s1 : Server} (h : progressReceive L s = .ok (s1, .ok none)) :
    ∃ st k, s1.receiveState = .command st ∧ st.nextFragment = .literal k ∧ k ≤ s.options.maxLiteralSize := by
  unfold progressReceive at h
  split at h
  · split at h
    · cases h
    · unfold commandDecoded at h
      split at h
      · cases h
      · split at h
        · split at h <;> cases h
        · split at h <;> cases h
        · cases h
    · cases h
    · unfold literalFound at h
      split at h
      · split at h
        · split at h
          · cases h
          · dsimp only at h
            split at h <;> cases h
        · split at h <;> cases h
      · dsimp only at h
        split at h
        · split at h
          · cases h
          · split at h
            · cases h
            · cases h; exact ⟨_, _, rfl, rfl, by omega⟩
        · cases h; exact ⟨_, _, rfl, rfl, by omega⟩
    all_goals
      unfold discardCommand at h
      split at h <;> cases h
  · split at h <;> cases h
  · cases h
  · split at h
    · cases h
    · cases h
    · split at h <;> cases h
  · cases h

theorem reservesNext_eq (L : Lib) (s : Server) :
    s.reservesNext L =
      match progressSend L s with
      | (s1, .ok none) =>
        match progressReceive L s1 with
        | .ok (s2, .ok none) => s2.asked ++ s2.reservesNext L
        | _ => []
      | _ => [] := by
  rw [reservesNext]
  split <;> rename_i h1
  · rw [h1]
    dsimp only
    split <;> rename_i h2
    · rw [h2]
    · split
      · rename_i h3; exact absurd h3 (h2 _)
      · rfl
  · split
    · rename_i h3; exact absurd h3 (h1 _)
    · rfl

theorem nextTrace_reserves {G t : Nat} {s s' : Server} {T : List SItem} (h : Searching 2 G t s.receiveState)
    (hr : s.nextTrace L = .ok (s', T)) :
    s'.options = s.options ∧ ∀ n ∈ s.reservesNext L, n ≤ G + s.options.maxLiteralSize := by
  induction hn : s.unread using Nat.strongRecOn generalizing s T t with
  | ind n ih =>
    rw [nextTrace_eq] at hr
    rw [reservesNext_eq]
    cases hs : progressSend L s with
    | mk s1 r1 =>
      have hs1 := progressSend_receiveState hs
      have ho := progressSend_options hs
      rw [hs] at hr
      rw [← hs1] at h
      rcases r1 with ((b | _) | e) | (_ | ev)
      · cases hr; exact ⟨ho, by simp⟩
      · cases hr; exact ⟨ho, by simp⟩
      · cases hr; exact ⟨ho, by simp⟩
      · dsimp only at hr ⊢
        cases hp : progressReceive L s1 with
        | error p => rw [hp] at hr; cases hr
        | ok x =>
          obtain ⟨s2, r2⟩ := x
          rw [hp] at hr
          have ho2 := (progressReceive_options hp).trans ho
          rcases r2 with ((b | _) | e) | (_ | ev)
          · cases hr; exact ⟨ho2, by simp⟩
          · cases hr; exact ⟨ho2, by simp⟩
          · cases hr; exact ⟨ho2, by simp⟩
          · dsimp only at hr ⊢
            have h2 := progressReceive_searching (.inr rfl) h hp
            have hu : s2.unread < n := by
              have := progressReceive_unread hp
              have h3 : s1.unread = s.unread := by simp [Server.unread, hs1]
              omega
            cases ht : s2.nextTrace L with
            | error p => rw [ht] at hr; cases hr
            | ok y =>
              obtain ⟨s3, U⟩ := y
              rw [ht] at hr
              cases hr
              obtain ⟨i1, i2⟩ := ih _ hu h2 ht rfl
              refine ⟨i1.trans ho2, fun m hm => ?_⟩
              rcases List.mem_append.mp hm with hm | hm
              · obtain ⟨st, k, e1, e2, e3⟩ := progressReceive_asked hp
                rw [e1] at h2
                have hG := h2.1
                simp only [asked, e1, ReceiveState.asked, e2, List.mem_singleton] at hm
                rw [ho] at e3
                omega
              · have := i2 m hm
                rw [ho2] at this
                exact this
          · cases hr; exact ⟨ho2, by simp⟩
      · cases hr; exact ⟨ho, by simp⟩

theorem callTrace_options {s s' : Server} {op : ServerOp} {T : List SItem} (hop : op ≠ .next)
    (hr : s.callTrace L op = .ok (s', T)) : s'.options = s.options := by
  cases op with
  | next => exact absurd rfl hop
  | enqueueData d => cases hr; rfl
  | enqueueStatus d => cases hr; rfl
  | enqueueContinuationRequest d => cases hr; rfl
  | authenticateContinue d =>
    simp only [callTrace] at hr
    unfold authenticateContinue at hr
    split at hr <;> (cases hr; rfl)
  | authenticateFinish d =>
    simp only [callTrace] at hr
    unfold authenticateFinish at hr
    split at hr
    · dsimp only at hr
      split at hr
      · cases hr
      · cases hr; rfl
    · cases hr; rfl
  | idleAccept d =>
    simp only [callTrace] at hr
    unfold idleAccept at hr
    split at hr
    · dsimp only at hr
      split at hr
      · cases hr
      · cases hr; rfl
    · cases hr; rfl
  | idleReject d =>
    simp only [callTrace] at hr
    unfold idleReject at hr
    split at hr
    · dsimp only at hr
      split at hr
      · cases hr
      · cases hr; rfl
    · cases hr; rfl
  | enqueueInput x =>
    simp only [callTrace] at hr
    unfold enqueueInput at hr
    split at hr <;> (cases hr; try rfl)

theorem trace_reserves {G t : Nat} {ops : List ServerOp} {s s' : Server} {T : List SItem}
    (h : Searching 2 G t s.receiveState) (hr : s.trace L ops = .ok (s', T)) :
    ∀ n ∈ s.reserves L ops, n ≤ G + (serverGiven T).length + s.options.maxLiteralSize := by
  rw [serverGiven_ops hr]
  induction ops generalizing s T G t with
  | nil => simp [reserves]
  | cons op ops ih =>
    unfold Server.trace at hr
    cases hcall : s.callTrace L op with
    | error p => rw [hcall] at hr; cases hr
    | ok x =>
      obtain ⟨s1, T1⟩ := x
      rw [hcall] at hr
      dsimp only at hr
      cases ht : s1.trace L ops with
      | error p => rw [ht] at hr; cases hr
      | ok y =>
        obtain ⟨s2, U⟩ := y
        rw [ht] at hr
        cases hr
        have h1 := callTrace_searching (.inr rfl) h hcall (by omega)
        have h2 := ih h1 ht
        intro n hn
        rw [reserves, hcall, List.mem_append] at hn
        rw [List.flatMap_cons, List.length_append, ← Nat.add_assoc]
        rcases hn with hn | hn
        · cases op with
          | next =>
            have := (nextTrace_reserves h hcall).2 n hn
            omega
          | _ => cases hn
        · have h3 := h2 n hn
          have ho : s1.options = s.options := by
            by_cases hop : op = .next
            · subst hop; exact (nextTrace_reserves h hcall).1
            · exact callTrace_options hop hcall
          rw [ho] at h3
          cases op <;> exact h3

end Server

theorem reservesResponse_eq (L : Lib) (s : ReceiveState) :
    reservesResponse L s =
      match s.next L.decodeResponse with
      | .ok (s1, .error (.error (.decodingFailure (.literalFound length)))) =>
        (s1.startLiteral length).asked ++ reservesResponse L (s1.startLiteral length)
      | _ => [] := by
  rw [reservesResponse]
  split <;> rename_i h1
  · rw [h1]
  · split
    · rename_i h3; exact absurd h3 (h1 _ _)
    · rfl

theorem next_announced {L : Lib} {N : Nat} (hN : L.Announces N) {st st1 : ReceiveState} {k : Nat}
    (h : st.next L.decodeResponse = .ok (st1, .error (.error (.decodingFailure (.literalFound k))))) : k ≤ N := by
  have line : ∀ {s s' : ReceiveState} {n : Nat},
      ReceiveState.progressLine L.decodeResponse s n =
        .ok (s', .error (.error (.decodingFailure (.literalFound k)))) → k ≤ N := by
    intro s s' n h
    unfold ReceiveState.progressLine at h
    dsimp only at h
    split at h
    · cases h
    · split at h
      · cases h
      · split at h <;> cases h
      · split at h
        · cases h
        · split at h
          · split at h <;> cases h
          · rename_i hd; cases h; exact hN _ _ hd
  unfold ReceiveState.next at h
  split at h
  · exact line h
  · split at h
    · cases h
    · rename_i hp
      simp only [ReceiveState.progressLiteral] at hp
      split at hp
      · cases hp
      · split at hp
        · split at hp <;> (cases hp; cases h)
        · cases hp
    · exact line h

theorem reservesResponse_le {L : Lib} {N : Nat} (hN : L.Announces N) {G t : Nat} {st : ReceiveState}
    (h : SearchedOnce G t st) : ∀ n ∈ reservesResponse L st, n ≤ G + N := by
  induction hn : st.unread using Nat.strongRecOn generalizing st t with
  | ind n ih =>
    intro m hm
    rw [reservesResponse_eq] at hm
    split at hm
    · rename_i st1 k hx
      obtain ⟨h1, h2, h3⟩ := h.next hx
      rcases h3 with ⟨⟨e, h3⟩, -⟩ | ⟨-, h4⟩
      · cases h3
      · have hu : st1.unread < st.unread := ReceiveState.next_unread hx (by simp) (by simp)
        rcases List.mem_append.mp hm with hm | hm
        · have hk := next_announced hN hx
          simp only [ReceiveState.asked, ReceiveState.startLiteral, List.mem_singleton] at hm
          omega
        · exact ih _ (by show st1.unread < n; omega)
            (show SearchedOnce G _ (st1.startLiteral k) from ⟨h1, h2, h4⟩) rfl m hm
    · cases hm

namespace Client

variable {L : Lib}

theorem reservesNext_eq (L : Lib) (c : Client) :
    c.reservesNext L =
      match progressSend L c with
      | .ok (c1, .ok none) =>
        c1.reservesReceive L ++
          match progressReceive L c1 with
          | .ok (c2, .ok none) => c2.reservesNext L
          | _ => []
      | _ => [] := by
  rw [reservesNext]
  split <;> rename_i h1
  · rw [h1]
    dsimp only
    split <;> rename_i h2
    · rw [h2]
    · split
      · rename_i h3; exact absurd h3 (h2 _)
      · rfl
  · split
    · rename_i h3; exact absurd h3 (h1 _)
    · rfl

theorem reservesReceive_le {N : Nat} (hN : L.Announces N) {G t : Nat} {c : Client} (h : Once G t c) :
    ∀ n ∈ c.reservesReceive L, n ≤ G + N := by
  unfold reservesReceive
  unfold Once at h
  split
  · rename_i st hst
    rw [hst] at h
    exact reservesResponse_le hN h
  · simp
  · simp

theorem reservesNext_le {N : Nat} (hN : L.Announces N) {G t : Nat} {c : Client} (h : Once G t c) :
    ∀ n ∈ c.reservesNext L, n ≤ G + N := by
  induction hn : c.unread using Nat.strongRecOn generalizing c t with
  | ind n ih =>
    intro m hm
    rw [reservesNext_eq] at hm
    split at hm
    · rename_i c1 hs
      have hc1 := progressSend_unread hs
      have h := h.congr hc1
      rcases List.mem_append.mp hm with hm | hm
      · exact reservesReceive_le hN h m hm
      · split at hm
        · rename_i c2 hp
          refine ih _ ?_ (progressReceive_once h hp) rfl m hm
          have := progressReceive_unread hp
          have h3 : c1.unread = c.unread := by simp [Client.unread, hc1]
          omega
        · cases hm
    · cases hm

theorem trace_reserves {N : Nat} (hN : L.Announces N) {G t : Nat} {ops : List ClientOp} {c c' : Client} {T : List CItem}
    (h : Once G t c) (hr : c.trace L ops = .ok (c', T)) :
    ∀ n ∈ c.reserves L ops, n ≤ G + (clientGiven T).length + N := by
  rw [clientGiven_ops hr]
  induction ops generalizing c T G t with
  | nil => simp [reserves]
  | cons op ops ih =>
    unfold Client.trace at hr
    cases hcall : c.callTrace L op with
    | error p => rw [hcall] at hr; cases hr
    | ok x =>
      obtain ⟨s1, T1⟩ := x
      rw [hcall] at hr
      dsimp only at hr
      cases ht : s1.trace L ops with
      | error p => rw [ht] at hr; cases hr
      | ok y =>
        obtain ⟨s2, U⟩ := y
        rw [ht] at hr
        cases hr
        have h2 := ih (callTrace_once h hcall) ht
        intro n hn
        rw [reserves, hcall, List.mem_append] at hn
        rw [List.flatMap_cons, List.length_append, ← Nat.add_assoc]
        rcases hn with hn | hn
        · cases op with
          | next =>
            have := reservesNext_le hN h n hn
            omega
          | _ => cases hn
        · have h3 := h2 n hn
          cases op <;> exact h3

end Client

namespace Imap

theorem announcedLength_le {r : Bytes} {mode mode' : LiteralMode} {k : Nat}
    (h : announcedLength r mode = some (k, mode')) : k ≤ 4294967295 := by
  unfold announcedLength at h
  split at h
  · split at h
    · cases h; omega
    · cases h
  · cases h

theorem announced_le {line : Bytes} {mode : LiteralMode} {k : Nat} (h : announced line = some (k, mode)) :
    k ≤ 4294967295 := by
  unfold announced at h
  split at h
  · exact announcedLength_le h
  · exact announcedLength_le h
  · cases h

theorem parse_announced_le {first : Bytes → Option (Nat × LiteralMode)}
    (hf : ∀ line k mode, first line = some (k, mode) → k ≤ 4294967295) {i line : Bytes} {k : Nat} {mode : LiteralMode}
    (h : parse first i = .error (some (line, k, mode))) : k ≤ 4294967295 := by
  fun_induction parse first i generalizing line k mode with
  | case1 => cases h
  | case2 => cases h
  | case3 first i line' k' mode' han hsp => cases h; exact hf _ _ _ han
  | case4 => cases h
  | case5 => cases h
  | case6 first i line' rest hsp k' mode' han hne hlen line'' k'' mode'' hp ih =>
    cases h
    exact ih (fun _ _ _ => announced_le) hp
  | case7 => cases h

/-- The lengths of literals are 32-bit numbers. -/
theorem announces : lib.Announces 4294967295 := by
  intro i k h
  simp only [lib, decodeResponse] at h
  split at h
  · cases h
  · rename_i hp
    cases h
    refine parse_announced_le (fun line k mode hl => ?_) hp
    unfold responseAnnounced at hl
    split at hl
    · cases hl
    · split at hl
      · cases hl
      · exact announced_le hl
  · split at h <;> cases h

end Imap

end ImapFlow
