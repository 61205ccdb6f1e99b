import Verif.Spec.Upgrade
import Verif.Proofs.StreamCalls
import Verif.Proofs.FullStream
import Verif.Props.C03
import Verif.Props.C29
import Verif.Props.C30
import Verif.Props.C47

/-!
# A connection that is upgraded to TLS
-/

namespace ImapFlow

variable {K σ ε ev ι : Type} {L : Lib}

theorem serverGiven_ops {ops : List ServerOp} {s s' : Server} {U : List SItem} (h : s.trace L ops = .ok (s', U)) :
    serverGiven U = ops.flatMap fun | .enqueueInput b => b | _ => [] := by
  induction ops generalizing s U with
  | nil => cases h; rfl
  | cons op ops ih =>
    unfold Server.trace at h
    cases hc : s.callTrace L op with
    | error p => rw [hc] at h; cases h
    | ok x =>
      obtain ⟨s1, U1⟩ := x
      rw [hc] at h
      simp only at h
      cases ht : s1.trace L ops with
      | error p => rw [ht] at h; cases h
      | ok y =>
        obtain ⟨s2, U2⟩ := y
        rw [ht] at h
        cases h
        rw [serverGiven_append, ih ht, List.flatMap_cons]
        rcases Server.callTrace_given hc with ⟨b, rfl, rfl⟩ | ⟨h1, h2⟩
        · simp [serverGiven, SItem.given]
        · rw [serverGiven_nil h2]
          cases op <;> first | rfl | exact absurd rfl (h1 _)

theorem clientGiven_ops {ops : List ClientOp} {s s' : Client} {U : List CItem} (h : s.trace L ops = .ok (s', U)) :
    clientGiven U = ops.flatMap fun | .enqueueInput b => b | _ => [] := by
  induction ops generalizing s U with
  | nil => cases h; rfl
  | cons op ops ih =>
    unfold Client.trace at h
    cases hc : s.callTrace L op with
    | error p => rw [hc] at h; cases h
    | ok x =>
      obtain ⟨s1, U1⟩ := x
      rw [hc] at h
      simp only at h
      cases ht : s1.trace L ops with
      | error p => rw [ht] at h; cases h
      | ok y =>
        obtain ⟨s2, U2⟩ := y
        rw [ht] at h
        cases h
        rw [clientGiven_append, ih ht, List.flatMap_cons]
        rcases Client.callTrace_given hc with ⟨b, rfl, rfl⟩ | ⟨h1, h2⟩
        · simp [clientGiven, CItem.given]
        · rw [clientGiven_nil h2]
          cases op <;> first | rfl | exact absurd rfl (h1 _)

theorem serverOps_given {S : List (StreamItem ServerError ServerEvent ServerOp)} (h : ∀ b, StreamItem.user (.enqueueInput b) ∉ S) :
    ((serverOps S).flatMap fun | .enqueueInput b => b | _ => []) = streamDelivered S := by
  induction S with
  | nil => rfl
  | cons i S ih =>
    have ih := ih fun b hm => h b (List.mem_cons_of_mem _ hm)
    rw [show i :: S = [i] ++ S from rfl, serverOps_append, List.flatMap_append, ih, streamDelivered_append]
    congr 1
    cases i with
    | user op =>
      cases op with
      | enqueueInput b => exact absurd List.mem_cons_self (h b)
      | _ => rfl
    | _ => rfl

theorem clientOps_given {S : List (StreamItem ClientError ClientEvent ClientOp)} (h : ∀ b, StreamItem.user (.enqueueInput b) ∉ S) :
    ((clientOps S).flatMap fun | .enqueueInput b => b | _ => []) = streamDelivered S := by
  induction S with
  | nil => rfl
  | cons i S ih =>
    have ih := ih fun b hm => h b (List.mem_cons_of_mem _ hm)
    rw [show i :: S = [i] ++ S from rfl, clientOps_append, List.flatMap_append, ih, streamDelivered_append]
    congr 1
    cases i with
    | user op =>
      cases op with
      | enqueueInput b => exact absurd List.mem_cons_self (h b)
      | _ => rfl
    | _ => rfl

/-- The calls of a stream on a server, as a trace. -/
theorem server_replay_trace {S : List (StreamItem ServerError ServerEvent ServerOp)} {s s' : Server}
    (h : (serverMachine L).replay s S = some s')
    (ho : StreamItem.user .next ∉ S ∧ ∀ b, StreamItem.user (.enqueueInput b) ∉ S) :
    ∃ U, s.trace L (serverOps S) = .ok (s', U) ∧ U.filterMap SItem.result? = S.filterMap StreamItem.poll? ∧
      serverGiven U = streamDelivered S := by
  obtain ⟨U, h1, h2⟩ := server_items (n := ⟨Client.new ClientSample.g .default, s, streamDelivered S, []⟩) (rest := []) h
    (by simp) ho
  obtain ⟨U', h3, h4⟩ := server_net_trace (rest := []) (by simp) ho h1
  obtain rfl : U = U' := (List.map_inj_right fun a b h => by cases h; rfl).1 h3
  exact ⟨U, h4, h2.results, by rw [serverGiven_ops h4, serverOps_given ho.2]⟩

/-- The calls of a stream on a client, as a trace. -/
theorem client_replay_trace {S : List (StreamItem ClientError ClientEvent ClientOp)} {s s' : Client}
    (h : (clientMachine L).replay s S = some s')
    (ho : StreamItem.user .next ∉ S ∧ ∀ b, StreamItem.user (.enqueueInput b) ∉ S) :
    ∃ U, s.trace L (clientOps S) = .ok (s', U) ∧ U.filterMap CItem.result? = S.filterMap StreamItem.poll? ∧
      clientGiven U = streamDelivered S := by
  obtain ⟨U, h1, h2⟩ := client_items (n := ⟨s, Server.new ClientSample.g ServerSample.options ServerSample.greeting, [], streamDelivered S⟩)
    (rest := []) h (by simp) ho
  obtain ⟨U', h3, h4⟩ := client_net_trace (rest := []) (by simp) ho h1
  obtain rfl : U = U' := (List.map_inj_right fun a b h => by cases h; rfl).1 h3
  exact ⟨U, h4, h2.results, by rw [clientGiven_ops h4, clientOps_given ho.2]⟩

namespace Upgraded

variable {M : Machine σ ε ev ι} {s : σ} {t : Tls K}

theorem of_run {α : Type} {as as' : List (StreamAct ι)}
    {f : FullStream K σ × List (FullItem ε ev ι) × FullStream K σ × List (FullItem ε ev ι) → α} {y : α}
    (h : (upgradedRun M s t as as').map f = some y) :
    ∃ u : Upgraded M s t, f (u.before, u.itemsBefore, u.after, u.itemsAfter) = y := by
  unfold upgradedRun at h
  split at h
  · cases h
  rename_i c1 T1 h1
  split at h
  · cases h
  rename_i c2 h2
  split at h
  · cases h
  rename_i c3 T3 h3
  simp only [Option.map_some, Option.some.injEq] at h
  exact ⟨⟨c1, T1, c3, T3, ⟨as, h1⟩, ⟨as', c2, h2, h3⟩⟩, h⟩

/-- The stream before the upgrade, as in `Model/Stream.lean`. -/
theorem plain (u : Upgraded M s t) : ∃ as c, StreamConf.run M (.insecure s) as = some (c, u.plainPart) ∧ c.ctl ≠ .dead ∧
    c.state = u.before.state ∧ c.writeBuffer = u.before.writeBuffer := by
  obtain ⟨as, h⟩ := u.first
  obtain ⟨as', c', h', -⟩ := u.second
  have hi : u.before.ctl = .at .idle := by
    unfold FullStream.upgrade at h'
    split at h'
    · assumption
    · cases h'
  rw [FullStream.run_insecure] at h
  cases hc : StreamConf.run M (.insecure s) as with
  | none => rw [hc] at h; cases h
  | some x =>
    obtain ⟨c, T⟩ := x
    rw [hc] at h
    simp only [Option.map_some, liftPlain, Option.some.injEq, Prod.mk.injEq] at h
    obtain ⟨h1, h2⟩ := h
    refine ⟨as, c, ?_, ?_, ?_, ?_⟩
    · rw [hc, plainPart, ← h2]
      have : streamPart (T.map FullItem.stream) = T := by
        unfold streamPart
        rw [List.filterMap_map]
        exact List.filterMap_some
      rw [this]
    · intro hd
      rw [← h1] at hi
      simp [FullStream.ofPlain, hd] at hi
    · rw [← h1]; rfl
    · rw [← h1]; rfl

theorem run_after (u : Upgraded M s t) : ∃ as, FullStream.run M (.secure t u.before.state) as = some (u.after, u.itemsAfter) := by
  obtain ⟨as, c, h', h2⟩ := u.second
  unfold FullStream.upgrade at h'
  split at h'
  · cases h'; exact ⟨as, h2⟩
  · cases h'

theorem delivered (u : Upgraded M s t) (hR : t.layer.Receives) (ht : t.Ready) {cs : List RecordContent} (hp : u.Protected cs)
    (hd : u.after.ctl ≠ .at .dead) : streamDelivered u.securePart = plaintext cs := by
  obtain ⟨as, h⟩ := u.run_after
  obtain ⟨records, part, k, h1, h2, h3, h4⟩ := hp
  exact (C47_input hR ht h h1 h2 h3 h4).2 hd

theorem wrote (u : Upgraded M s t) : streamWrote u.plainPart ++ u.before.writeBuffer = streamOutput u.plainPart := by
  obtain ⟨as, c, h1, -, -, h4⟩ := u.plain
  rw [← h4]
  exact C30_output h1

theorem read (u : Upgraded M s t) : streamDelivered u.plainPart = streamRead u.plainPart := by
  obtain ⟨as, c, h1, h2, -⟩ := u.plain
  exact C29_nothing_kept h1 h2

end Upgraded

end ImapFlow
