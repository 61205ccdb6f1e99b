import Verif.Proofs.FullStreamRun
import Verif.Proofs.Net
import Verif.Proofs.ClientSafe
import Verif.Spec.Proxy

/-!
# The two connections of the proxy

A step of a connection extends the trace of its client (its server) by the calls of the stream.
-/

namespace ImapFlow

/-- The item neither reports an event nor is a call of the owner. -/
def CItem.Silent : CItem → Prop
  | .input _ | .output _ | .released _ | .failed _ | .starved => True
  | _ => False

/-- The item neither reports an event nor is a call of the owner. -/
def SItem.Silent : SItem → Prop
  | .input _ | .output _ | .quiet | .literal .. | .failed .. | .starved => True
  | _ => False

section
variable {K σ ε ev ι : Type}

/-- Neither an event nor a call of the owner. -/
def StreamItem.Plain (i : StreamItem ε ev ι) : Prop := i.event? = none ∧ i.call? = none

/-- A step without an event. -/
def Uneventful (T : List (FullItem ε ev ι)) : Prop :=
  (∀ i ∈ streamPart T, i.Plain) ∧ (∀ e, nextResult T ≠ some (.ok e))

/-- A step that ends with an event. -/
def Eventful (T : List (FullItem ε ev ι)) (e : ev) : Prop :=
  ∃ T0, T = T0 ++ [.stream (.returned (.ok e))] ∧ (∀ i ∈ streamPart T0, i.Plain) ∧ nextResult T = some (.ok e)

/-- The item is neither a call on the state nor reports something of it. -/
def FullItem.Outside : FullItem ε ev ι → Prop
  | .stream i => i.Outside
  | .refused => False
  | .broken | .hung => True

theorem StreamItem.Outside.plain {i : StreamItem ε ev ι} (h : i.Outside) : i.Plain := by
  cases i <;> first | exact h.elim | exact ⟨rfl, rfl⟩

theorem outside_part {T : List (FullItem ε ev ι)} (h : ∀ i ∈ T, i.Outside) : ∀ i ∈ streamPart T, i.Outside := by
  intro i hi
  obtain ⟨j, hj, he⟩ := List.mem_filterMap.1 hi
  have := h j hj
  cases j <;> cases he
  exact this

theorem nextResult_cons {i : StreamItem ε ev ι} {T : List (FullItem ε ev ι)} (h : ∀ r, i ≠ .returned r) :
    nextResult (.stream i :: T) = nextResult T := by
  unfold nextResult
  rw [List.findSome?_cons]
  cases i <;> first | rfl | exact (h _ rfl).elim

theorem nextResult_map {T : List (StreamItem ε ev ι)} {U : List (FullItem ε ev ι)} (h : ∀ i ∈ T, ∀ r, i ≠ .returned r) :
    nextResult (T.map .stream ++ U) = nextResult U := by
  induction T with
  | nil => rfl
  | cons i T ih =>
    rw [List.map_cons, List.cons_append, nextResult_cons (h i List.mem_cons_self)]
    exact ih fun j hj => h j (List.mem_cons_of_mem _ hj)

theorem Uneventful.of_outside {T : List (FullItem ε ev ι)} (h : ∀ i ∈ T, i.Outside) : Uneventful T := by
  refine ⟨fun i hi => (outside_part h i hi).plain, fun e he => ?_⟩
  unfold nextResult at he
  obtain ⟨j, hj, he⟩ := List.exists_of_findSome?_eq_some he
  have := h j hj
  split at he
  · exact this
  · cases he
  · cases he

theorem Uneventful.ended {x : StreamItem ε ev ι} {e : StreamError ε} (h : x.Outside) :
    Uneventful [.stream x, .stream (.returned (.error e))] := by
  refine ⟨?_, fun e' => ?_⟩
  · intro i hi
    rw [streamPart_cons, streamPart_cons] at hi
    simp only [streamPart, List.filterMap_nil, List.mem_cons, List.not_mem_nil, or_false] at hi
    rcases hi with rfl | rfl
    · exact h.plain
    · exact ⟨rfl, rfl⟩
  · rw [nextResult_cons (by rintro r rfl; exact h)]
    simp [nextResult]

/-- What follows the call of the state: the result, or the failure of `encrypt`. -/
def After (r : Except (Interrupt ε) ev) (E : List (FullItem ε ev ι)) : Prop :=
  E = (returns r).map .stream ∨ ((∃ io, r = .error (.io io)) ∧ E = [.refused, .stream (.returned (.error .io))])

/-- The items of a step that called the state. -/
theorem called_items {M : Machine σ ε ev ι} {x : StreamItem ε ev ι} {b : Bytes} {s s1 : σ}
    {D : List (StreamItem ε ev ι)} (hx : x.Outside) (hD : Provides M b s s1 D) {r : Except (Interrupt ε) ev}
    {E : List (FullItem ε ev ι)} (hE : After r E) {T : List (FullItem ε ev ι)}
    (hT : T = (x :: D ++ [StreamItem.poll r]).map .stream ++ E) :
    streamDelivered (streamPart T) = b ∧
    streamOutput (streamPart T) = (match r with | .error (.io (.output b)) => b | _ => []) ∧
    (match r with
      | .ok e => Eventful T e
      | .error _ => Uneventful T) := by
  subst hT
  have hd : streamDelivered (x :: D) = b ∧ streamOutput (x :: D) = [] := by
    rcases hD with ⟨rfl, -, rfl⟩ | ⟨-, -, rfl⟩
    · cases x <;> first | exact hx.elim | exact ⟨rfl, rfl⟩
    · cases x <;> first | exact hx.elim | exact ⟨by simp [streamDelivered], rfl⟩
  have hr : streamDelivered [(.poll r : StreamItem ε ev ι)] = [] ∧
      streamOutput [(.poll r : StreamItem ε ev ι)] =
        (match r with | .error (.io (.output b)) => b | _ => []) := by
    rcases r with ((_ | b) | e) | e <;> simp [streamDelivered, streamOutput]
  have he : streamDelivered (streamPart E) = [] ∧ streamOutput (streamPart E) = [] := by
    rcases hE with rfl | ⟨-, rfl⟩
    · rcases r with (_ | e) | e <;> exact ⟨rfl, rfl⟩
    · exact ⟨rfl, rfl⟩
  have hp : ∀ i ∈ x :: D ++ [.poll r], i.Plain := by
    intro i hi
    rcases List.mem_append.mp hi with hi | hi
    · rcases List.mem_cons.mp hi with rfl | hi
      · exact hx.plain
      · rcases hD with ⟨-, -, rfl⟩ | ⟨-, -, rfl⟩
        · cases hi
        · rw [List.mem_singleton.mp hi]; exact ⟨rfl, rfl⟩
    · rw [List.mem_singleton.mp hi]; exact ⟨rfl, rfl⟩
  have hn : ∀ i ∈ x :: D ++ [.poll r], ∀ r, i ≠ .returned r := by
    intro i hi
    rcases List.mem_append.mp hi with hi | hi
    · rcases List.mem_cons.mp hi with rfl | hi
      · rintro r rfl; exact hx
      · rcases hD with ⟨-, -, rfl⟩ | ⟨-, -, rfl⟩
        · cases hi
        · rw [List.mem_singleton.mp hi]; simp
    · rw [List.mem_singleton.mp hi]; simp
  refine ⟨?_, ?_, ?_⟩
  · rw [streamPart_append, streamPart_map, streamDelivered_append, streamDelivered_append, hd.1, hr.1, he.1]
    simp
  · rw [streamPart_append, streamPart_map, streamOutput_append, streamOutput_append, hd.2, hr.2, he.2]
    rcases r with ((_ | b) | e) | e <;> simp
  · have hun : (∀ i ∈ streamPart E, i.Plain) → (∀ e, nextResult E ≠ some (.ok e)) →
        Uneventful ((x :: D ++ [StreamItem.poll r]).map .stream ++ E) := by
      intro h1 h2
      refine ⟨?_, fun e' => by rw [nextResult_map hn]; exact h2 e'⟩
      intro i hi
      rw [streamPart_append, streamPart_map] at hi
      rcases List.mem_append.mp hi with hi | hi
      · exact hp i hi
      · exact h1 i hi
    rcases r with (io | e) | e
    · refine hun ?_ ?_
      · rcases hE with rfl | ⟨-, rfl⟩
        · simp [returns, streamPart]
        · simp [streamPart, FullItem.stream?, StreamItem.Plain, StreamItem.event?, StreamItem.call?]
      · rcases hE with rfl | ⟨-, rfl⟩ <;> simp [nextResult, returns]
    · refine hun ?_ ?_
      · rcases hE with rfl | ⟨⟨_, h⟩, -⟩
        · simp [streamPart, returns, FullItem.stream?, StreamItem.Plain, StreamItem.event?, StreamItem.call?]
        · cases h
      · rcases hE with rfl | ⟨⟨_, h⟩, -⟩
        · simp [nextResult, returns]
        · cases h
    · rcases hE with rfl | ⟨⟨_, h⟩, -⟩
      · refine ⟨_, rfl, ?_, ?_⟩
        · rw [streamPart_map]; exact hp
        · rw [nextResult_map hn]; simp [nextResult, returns]
      · cases h

/-- Records are not shorter than their content. -/
def Growing (tls : Option (Tls K)) : Prop :=
  ∀ t, tls = some t → ∀ k d, d.length ≤ (t.layer.protect k d).2.flatten.length

theorem Growing.fixed {t1 t2 : Option (Tls K)} (h : Growing t1) (hs : FullStream.SameFixed t1 t2) : Growing t2 := by
  intro t ht
  subst ht
  cases t1 with
  | none => exact hs.elim
  | some t1 =>
    rw [show t.layer = t1.layer from hs.1]
    exact h t1 rfl

theorem Tls.writeAll_sendable (t : Tls K) (hg : ∀ k d, d.length ≤ (t.layer.protect k d).2.flatten.length)
    {bytes : Bytes} {t' : Tls K} (h : t.writeAll bytes = (t', .ok ())) (hb : bytes ≠ []) : t'.sendable.flatten ≠ [] := by
  have grow : ∀ (t : Tls K) (bytes : Bytes), ∀ t', t.writeAll bytes = (t', .ok ()) →
      t.sendable.flatten.length ≤ t'.sendable.flatten.length := by
    intro t bytes
    fun_induction Tls.writeAll t bytes with
    | case1 => rintro t' ⟨⟩; exact Nat.le_refl _
    | case2 => rintro t' ⟨⟩
    | case3 t b bs t1 n hw ih =>
      intro t' h
      refine Nat.le_trans ?_ (ih t' h)
      simp only [Tls.write] at hw
      split at hw
      · injection hw with h1 h2; cases h2
      · injection hw with h1 h2
        rw [← h1]
        simp
  cases bytes with
  | nil => exact (hb rfl).elim
  | cons b bs =>
    rw [Tls.writeAll] at h
    split at h
    · cases h
    · rename_i t1 n hw
      have h1 := grow _ _ _ h
      have h2 : 0 < t1.sendable.flatten.length := by
        simp only [Tls.write] at hw
        split at hw
        · injection hw with h1 h2; cases h2
        · rename_i h0
          injection hw with h1 h2
          rw [← h1]
          have := hg t.writeKey ((b :: bs).take (min (b :: bs).length t.space))
          rw [List.length_take] at this
          simp only [List.flatten_append, List.length_append]
          refine Nat.lt_of_lt_of_le ?_ (Nat.le_add_left _ _)
          refine Nat.lt_of_lt_of_le ?_ this
          omega
      intro h3
      rw [h3] at h1
      simp only [List.length_nil] at h1
      omega

/-- If there is nothing to write, nothing was handed out. -/
theorem FullStream.handleOutput_nil {c c1 : FullStream K σ} {b : Bytes} (hg : Growing c.tls)
    (h : c.handleOutput b = (c1, true)) (hw : c1.writeBuffer = []) : b = [] := by
  unfold FullStream.handleOutput at h
  split at h
  · cases h
    exact (List.append_eq_nil_iff.1 hw).2
  · rename_i t ht
    split at h
    · rename_i t' wb' he
      cases h
      simp only [Tls.encrypt] at he
      by_cases hb : b = []
      · exact hb
      · rw [if_neg (by simpa using hb)] at he
        split at he
        · cases he
        · rename_i t1 hwr
          rw [Tls.drainWrites_eq] at he
          cases he
          exact absurd (List.append_eq_nil_iff.1 hw).2 (t.writeAll_sendable (hg t ht) hwr hb)
    · cases h

/-- A step that is not a call of the owner. -/
inductive FullIo (M : Machine σ ε ev ι) (c c' : FullStream K σ) : List (FullItem ε ev ι) → Prop where
  /-- the state is not called and `next` does not return anything of it -/
  | quiet (T) : (∀ i ∈ T, i.Outside) → c'.state = c.state → c'.ctl ≠ .at .dead → c'.ctl ≠ .at .reading →
      FullIo M c c' T
  /-- the connection ended -/
  | ended (x : StreamItem ε ev ι) (e) : x.Outside → c'.state = c.state → c'.ctl = .at .idle →
      FullIo M c c' [.stream x, .stream (.returned (.error e))]
  /-- the state was called -/
  | called (x : StreamItem ε ev ι) (b D s1 r E T) : x.Outside → Provides M b c.state s1 D → M.next s1 = .ok (c'.state, r) → c'.ctl ≠ .at .dead →
      After r E → T = (x :: D ++ [StreamItem.poll r]).map .stream ++ E →
      (Growing c.tls → c'.ctl = .at .reading → r = .error (.io .needMoreInput) ∨ r = .error (.io (.output []))) →
      FullIo M c c' T
  /-- the state panicked on input -/
  | inputPanic (T b p) : M.enqueueInput c.state b = .error p → FullIo M c c' T
  /-- the state panicked -/
  | nextPanic (T b D s1 p) : Provides M b c.state s1 D → M.next s1 = .error p → FullIo M c c' T

namespace FullStream

theorem Advanced.io {M : Machine σ ε ev ι} {c c0 c' : FullStream K σ} {x : StreamItem ε ev ι}
    {T : List (FullItem ε ev ι)} (hx : x.Outside) (h : Advanced M c0 c' T) (hs : c0.state = c.state) (ht : c0.tls = c.tls) :
    FullIo M c c' (.stream x :: T) := by
  have fst : ∀ {tls rest b} {s2 : σ} {io : Io} {c1 : FullStream K σ} {ok : Bool}, c0.Takes tls rest b →
      ({ c0 with tls, readBuffer := rest, state := s2 } : FullStream K σ).handleOutput (outputBytes io) = (c1, ok) →
      c1.state = s2 := by
    intro tls rest b s2 io c1 ok _ ho
    exact (handleOutput_same_recv ho).2.2.1
  cases h with
  | hung h1 h2 h3 =>
    subst h3
    exact .quiet _ (by simpa [FullItem.Outside] using hx) hs (by simp) (by simp)
  | broken h1 h2 h3 =>
    subst h3
    exact .quiet _ (by simpa [FullItem.Outside] using hx) hs (by simp) (by simp)
  | inputPanic h1 h2 h3 => exact .inputPanic _ _ _ (hs ▸ h2)
  | nextPanic h1 h2 h3 h4 => exact .nextPanic _ _ _ _ _ (hs ▸ h2) h3
  | returned h1 h2 h3 h4 h5 =>
    subst h5
    exact .called x _ _ _ _ _ _ hx (hs ▸ h2) h3 (by simp) (.inl rfl) (by simp) (by simp)
  | waits h1 h2 h3 h4 h5 =>
    subst h5
    refine .called x _ _ _ _ [] _ hx (hs ▸ h2) (by rw [h3]; simp only; rw [fst h1 h4]) (by simp; split <;> simp)
      (.inl rfl) (by simp) ?_
    intro hg hc
    rename_i io c1
    have hw : c1.writeBuffer = [] := by
      by_cases hw : c1.writeBuffer = []
      · exact hw
      · simp [hw] at hc
    have := handleOutput_nil (hg.fixed (by rw [← ht]; exact .of_send h1.same_send)) h4 hw
    cases io with
    | needMoreInput => exact .inl rfl
    | output b => exact .inr (by rw [show b = [] from this])
  | refused h1 h2 h3 h4 h5 =>
    subst h5
    exact .called x _ _ _ _ [.refused, .stream (.returned (.error .io))] _ hx (hs ▸ h2)
      (by rw [h3]; simp only; rw [fst h1 h4]) (by simp) (.inr ⟨⟨_, rfl⟩, rfl⟩) (by simp) (by simp)

theorem step_io {M : Machine σ ε ev ι} {c c' : FullStream K σ} {a : StreamAct ι} {T : List (FullItem ε ev ι)}
    (ha : ∀ op, a ≠ .user op) (h : c.step M a = some (c', T)) : FullIo M c c' T := by
  have hu : ∀ op T', T ≠ .stream (.user op) :: T' := by
    rintro op T' rfl
    cases a with
    | user op => exact ha op rfl
    | callNext =>
      simp only [step] at h
      split at h <;> cases h
    | callFlush =>
      simp only [step, startFlush] at h
      split at h
      · split at h <;> cases h
      · cases h
    | read b =>
      simp only [step, completeRead] at h
      split at h
      · split at h <;> cases h
      · split at h <;> cases h
      · cases h
    | write n =>
      simp only [step, completeWrite, completeFlush] at h
      split at h
      · split at h
        · split at h
          · cases h
          · split at h <;> cases h
        · split at h
          · cases h
          · split at h <;> cases h
        · cases h
      · cases h
    | fail =>
      simp only [step] at h
      split at h <;> cases h
    | drop =>
      simp only [step] at h
      split at h <;> cases h
  cases step_cases h with
  | user => exact (hu _ _ rfl).elim
  | userPanic => exact (hu _ _ rfl).elim
  | callNext h1 h2 => exact h2.io trivial rfl rfl
  | read h1 h2 h3 => exact h3.io trivial rfl rfl
  | written h1 h2 h3 h4 => exact h4.io trivial rfl rfl
  | wrote h1 h2 h3 h4 =>
    rcases h4 with ⟨-, rfl, rfl⟩ | ⟨-, -, rfl, rfl⟩
    · refine .quiet _ (by simp [FullItem.Outside, StreamItem.Outside]) rfl ?_ ?_ <;>
        rcases h1 with h1 | h1 <;> simp [h1]
    · exact .quiet _ (by simp [FullItem.Outside, StreamItem.Outside]) rfl (by simp) (by simp)
  | flush h1 h2 h3 =>
    obtain ⟨-, -, e1, e2⟩ := handleOutput_same_recv h2
    rcases h3 with ⟨-, rfl, rfl⟩ | ⟨-, rfl, rfl⟩
    · exact .quiet _ (by simp [FullItem.Outside, StreamItem.Outside]) e1 (by simp [e2, h1]) (by simp [e2, h1])
    · exact .quiet _ (by simp [FullItem.Outside, StreamItem.Outside]) e1 (by simp) (by simp)
  | ended h1 h2 =>
    subst h1
    rcases h2 with ⟨-, rfl, rfl⟩ | ⟨-, rfl, rfl⟩ | ⟨-, rfl, rfl⟩ | ⟨-, rfl, rfl⟩ | ⟨-, rfl, rfl⟩
    · exact .ended _ _ trivial rfl rfl
    · exact .ended _ _ trivial rfl rfl
    · exact .quiet _ (by simp [FullItem.Outside, StreamItem.Outside]) rfl (by simp) (by simp)
    · exact .ended _ _ trivial rfl rfl
    · exact .quiet _ (by simp [FullItem.Outside, StreamItem.Outside]) rfl (by simp) (by simp)
  | dropped h1 h2 =>
    subst h2
    exact .quiet _ (by simp [FullItem.Outside, StreamItem.Outside]) rfl (by simp) (by simp)

end FullStream

end

/-! ## The connection to the server -/

/-- How a step of the connection to the server extends the trace of the client. -/
structure ClientProgress (U : List CItem) (T : List (FullItem ClientError ClientEvent ClientOp)) : Prop where
  given : clientGiven U = streamDelivered (streamPart T)
  output : clientOutput U = streamOutput (streamPart T)
  event : ((∀ i ∈ U, i.Silent) ∧ Uneventful T) ∨
    ∃ pre i e, U = pre ++ [i] ∧ (∀ j ∈ pre, j.Silent) ∧ i.event? = some e ∧ Eventful T e

theorem Client.next_trace {L : Lib} {c c' : Client} {r : Except (Interrupt ClientError) ClientEvent}
    (h : c.next L = .ok (c', r)) : ∃ (ws : List Bytes) (i : CItem), c.nextTrace L = .ok (c', ws.map .released ++ [i]) ∧
      i.erase = some (.next r) := by
  have h1 := Client.nextTrace_erase L c
  rw [h] at h1
  cases hn : c.nextTrace L with
  | error p => rw [hn] at h1; cases h1
  | ok x =>
    obtain ⟨c1, T⟩ := x
    rw [hn] at h1
    simp only [eraseRes, Except.map, Except.ok.injEq, Prod.mk.injEq] at h1
    obtain ⟨rfl, h1⟩ := h1
    obtain ⟨ws, i, rfl, h2, h3⟩ := Client.nextTrace_shape hn
    refine ⟨ws, i, rfl, ?_⟩
    have h4 : (ws.map CItem.released).filterMap CItem.erase = [] := by simp [CItem.erase]
    rw [List.filterMap_append, h4] at h1
    cases he : i.erase with
    | none => simp [he] at h1
    | some o => simpa [he] using h1

theorem client_step {K : Type} {L : Lib} (hL : L.Lawful) {g : HandleGenerator} {o : ClientOptions} {ops : List ClientOp}
    {c c' : FullStream K Client} {U : List CItem} {a : StreamAct ClientOp}
    {T : List (FullItem ClientError ClientEvent ClientOp)}
    (ht : (Client.new g o).trace L ops = .ok (c.state, U)) (ha : ∀ op, a ≠ .user op)
    (h : c.step (clientMachine L) a = some (c', T)) :
    c'.ctl ≠ .at .dead ∧ ∃ ops' U', (Client.new g o).trace L ops' = .ok (c'.state, U ++ U') ∧ ClientProgress U' T ∧
      (Growing c.tls → c'.ctl = .at .reading → ∃ W i, U' = W ++ [i] ∧ (i = .starved ∨ i = .output [])) := by
  have safe := Client.trace_safe hL (Client.new_inv L g o)
  have provide : ∀ {b : Bytes} {s1 : Client} {D : List (StreamItem ClientError ClientEvent ClientOp)},
      Provides (clientMachine L) b c.state s1 D → ∃ ops1 U1, (Client.new g o).trace L ops1 = .ok (s1, U ++ U1) ∧
        clientGiven U1 = b ∧ clientOutput U1 = [] ∧ ∀ i ∈ U1, i.Silent := by
    intro b s1 D hD
    rcases hD with ⟨rfl, rfl, -⟩ | ⟨-, hD, -⟩
    · exact ⟨ops, [], by simpa using ht, rfl, rfl, by simp⟩
    · refine ⟨ops ++ [.enqueueInput b], [.input b], ?_, by simp [clientGiven, CItem.given], rfl, by simp [CItem.Silent]⟩
      rw [Client.trace_append, ht]
      have hD : c.state.enqueueInput b = .ok s1 := hD
      simp [Client.trace, Client.callTrace, hD, Except.map]
  cases FullStream.step_io ha h with
  | quiet _ hT hs hd hr =>
    exact ⟨hd, ops, [], by rw [hs]; simpa using ht, by
      refine ⟨?_, ?_, .inl ⟨by simp, .of_outside hT⟩⟩
      · symm; simp only [clientGiven, streamDelivered, List.flatMap_nil, List.flatMap_eq_nil_iff]
        intro i hi; have := outside_part hT i hi; cases i <;> first | exact this.elim | rfl
      · symm; simp only [clientOutput, streamOutput, List.flatMap_nil, List.flatMap_eq_nil_iff]
        intro i hi; have := outside_part hT i hi; cases i <;> first | exact this.elim | rfl, fun _ hc => (hr hc).elim⟩
  | ended x e hx hs hd =>
    refine ⟨by rw [hd]; simp, ops, [], by rw [hs]; simpa using ht, ⟨?_, ?_, .inl ⟨by simp, .ended hx⟩⟩,
      fun _ hc => by rw [hd] at hc; cases hc⟩
    · cases x <;> first | exact hx.elim | rfl
    · cases x <;> first | exact hx.elim | rfl
  | called x b D s1 r E _ hx hD hn hd hE hT hrd =>
    obtain ⟨ops1, U1, h1, h2, h3, h4⟩ := provide hD
    obtain ⟨ws, i, h5, h6⟩ := Client.next_trace (show s1.next L = .ok (c'.state, r) from hn)
    obtain ⟨g1, g2, g3⟩ := called_items hx hD hE hT
    refine ⟨hd, ops1 ++ [.next], U1 ++ (ws.map .released ++ [i]), ?_, ⟨?_, ?_, ?_⟩,
      fun hg hc => ⟨_, i, (List.append_assoc ..).symm, ?_⟩⟩
    · rw [Client.trace_append, h1]
      simp [Client.trace, Client.callTrace, h5]
    · rw [clientGiven_append, h2, g1, clientGiven_append]
      have e1 : clientGiven (ws.map CItem.released) = [] := by simp [clientGiven, CItem.given]
      have e2 : clientGiven [i] = [] := by
        cases i <;> first | rfl | cases h6
      rw [e1, e2]; simp
    · rw [clientOutput_append, h3, g2, clientOutput_append]
      have e1 : clientOutput (ws.map CItem.released) = [] := by simp [clientOutput, CItem.outputs]
      rw [e1]
      cases i <;> cases h6 <;> simp [clientOutput, CItem.outputs]
    · have hpre : ∀ j ∈ U1 ++ ws.map CItem.released, j.Silent := by
        intro j hj
        rcases List.mem_append.mp hj with hj | hj
        · exact h4 j hj
        · obtain ⟨w, -, rfl⟩ := List.mem_map.mp hj; trivial
      rcases r with e | e
      · refine .inl ⟨?_, g3⟩
        intro j hj
        rw [← List.append_assoc] at hj
        rcases List.mem_append.mp hj with hj | hj
        · exact hpre j hj
        · rw [List.mem_singleton.mp hj]
          cases i <;> first | trivial | cases h6
      · refine .inr ⟨_, i, e, (List.append_assoc ..).symm, hpre, ?_, g3⟩
        cases i <;> cases h6 <;> rfl
    · rcases hrd hg hc with rfl | rfl
      · cases i <;> cases h6; exact .inl rfl
      · cases i <;> cases h6; exact .inr rfl
  | inputPanic _ b p hp =>
    obtain ⟨y, hy⟩ := safe (ops ++ [.enqueueInput b])
    rw [Client.trace_append, ht] at hy
    have hp : c.state.enqueueInput b = .error p := hp
    simp [Client.trace, Client.callTrace, hp, Except.map] at hy
  | nextPanic _ b D s1 p hD hn =>
    obtain ⟨ops1, U1, h1, -⟩ := provide hD
    obtain ⟨y, hy⟩ := safe (ops1 ++ [.next])
    have h2 := Client.nextTrace_erase L s1
    rw [show s1.next L = .error p from hn] at h2
    have h3 : s1.nextTrace L = .error p := by
      cases hx : s1.nextTrace L with
      | error q => rw [hx] at h2; simp only [Client.eraseRes, Except.map] at h2; cases h2; rfl
      | ok z => rw [hx] at h2; cases h2
    rw [Client.trace_append, h1] at hy
    simp [Client.trace, Client.callTrace, h3] at hy

/-! ## The connection to the client -/

/-- How a step of the connection to the client extends the trace of the server. -/
structure ServerProgress (V : List SItem) (T : List (FullItem ServerError ServerEvent ServerOp)) : Prop where
  given : serverGiven V = streamDelivered (streamPart T)
  output : serverOutput V = streamOutput (streamPart T)
  event : ((∀ i ∈ V, i.Silent) ∧ Uneventful T) ∨
    ∃ pre i e, V = pre ++ [i] ∧ (∀ j ∈ pre, j.Silent) ∧ i.event? = some e ∧ Eventful T e

theorem Server.next_trace {L : Lib} {s s' : Server} {r : Except (Interrupt ServerError) ServerEvent}
    (h : s.next L = .ok (s', r)) : ∃ W i, s.nextTrace L = .ok (s', W ++ [i]) ∧
      (∀ j ∈ W, j = .quiet ∨ ∃ p rs, j = .literal p rs) ∧ i.erase = some (.next r) := by
  have h1 := Server.nextTrace_erase L s
  rw [h] at h1
  cases hn : s.nextTrace L with
  | error p => rw [hn] at h1; cases h1
  | ok x =>
    obtain ⟨c1, T⟩ := x
    rw [hn] at h1
    simp only [eraseRes, Except.map, Except.ok.injEq, Prod.mk.injEq] at h1
    obtain ⟨rfl, h1⟩ := h1
    obtain ⟨W, i, rfl, h2, h3⟩ := Server.nextTrace_shape hn
    refine ⟨W, i, rfl, h3, ?_⟩
    have h4 : W.filterMap SItem.erase = [] := by
      rw [List.filterMap_eq_nil_iff]
      intro j hj
      rcases h3 j hj with rfl | ⟨p, rs, rfl⟩ <;> rfl
    rw [List.filterMap_append, h4] at h1
    cases he : i.erase with
    | none => exact (h2 he).elim
    | some o => simpa [he] using h1

theorem server_step {K : Type} {L : Lib} (hL : L.Lawful) {g : HandleGenerator} {o : ServerOptions} (hO : ServerOptions.Built L o)
    {gr : Greeting} {ops : List ServerOp}
    {c c' : FullStream K Server} {V : List SItem} {a : StreamAct ServerOp}
    {T : List (FullItem ServerError ServerEvent ServerOp)}
    (ht : (Server.new g o gr).trace L ops = .ok (c.state, V)) (ha : ∀ op, a ≠ .user op)
    (h : c.step (serverMachine L) a = some (c', T)) :
    c'.ctl ≠ .at .dead ∧ ∃ ops' V', (Server.new g o gr).trace L ops' = .ok (c'.state, V ++ V') ∧ ServerProgress V' T ∧
      (Growing c.tls → c'.ctl = .at .reading → ∃ W i, V' = W ++ [i] ∧ (i = .starved ∨ i = .output [])) := by
  have safe := Server.trace_safe hL hO.usable (Server.new_inv L g o gr)
  have provide : ∀ {b : Bytes} {s1 : Server} {D : List (StreamItem ServerError ServerEvent ServerOp)},
      Provides (serverMachine L) b c.state s1 D → ∃ ops1 V1, (Server.new g o gr).trace L ops1 = .ok (s1, V ++ V1) ∧
        serverGiven V1 = b ∧ serverOutput V1 = [] ∧ ∀ i ∈ V1, i.Silent := by
    intro b s1 D hD
    rcases hD with ⟨rfl, rfl, -⟩ | ⟨-, hD, -⟩
    · exact ⟨ops, [], by simpa using ht, rfl, rfl, by simp⟩
    · refine ⟨ops ++ [.enqueueInput b], [.input b], ?_, by simp [serverGiven, SItem.given], rfl, by simp [SItem.Silent]⟩
      rw [Server.trace_append, ht]
      have hD : c.state.enqueueInput b = .ok s1 := hD
      simp [Server.trace, Server.callTrace, hD, Except.map]
  cases FullStream.step_io ha h with
  | quiet _ hT hs hd hr =>
    exact ⟨hd, ops, [], by rw [hs]; simpa using ht, by
      refine ⟨?_, ?_, .inl ⟨by simp, .of_outside hT⟩⟩
      · symm; simp only [serverGiven, streamDelivered, List.flatMap_nil, List.flatMap_eq_nil_iff]
        intro i hi; have := outside_part hT i hi; cases i <;> first | exact this.elim | rfl
      · symm; simp only [serverOutput, streamOutput, List.flatMap_nil, List.flatMap_eq_nil_iff]
        intro i hi; have := outside_part hT i hi; cases i <;> first | exact this.elim | rfl, fun _ hc => (hr hc).elim⟩
  | ended x e hx hs hd =>
    refine ⟨by rw [hd]; simp, ops, [], by rw [hs]; simpa using ht, ⟨?_, ?_, .inl ⟨by simp, .ended hx⟩⟩,
      fun _ hc => by rw [hd] at hc; cases hc⟩
    · cases x <;> first | exact hx.elim | rfl
    · cases x <;> first | exact hx.elim | rfl
  | called x b D s1 r E _ hx hD hn hd hE hT hrd =>
    obtain ⟨ops1, U1, h1, h2, h3, h4⟩ := provide hD
    obtain ⟨W, i, h5, hW, h6⟩ := Server.next_trace (show s1.next L = .ok (c'.state, r) from hn)
    obtain ⟨g1, g2, g3⟩ := called_items hx hD hE hT
    refine ⟨hd, ops1 ++ [.next], U1 ++ (W ++ [i]), ?_, ⟨?_, ?_, ?_⟩,
      fun hg hc => ⟨_, i, (List.append_assoc ..).symm, ?_⟩⟩
    · rw [Server.trace_append, h1]
      simp [Server.trace, Server.callTrace, h5]
    · rw [serverGiven_append, h2, g1, serverGiven_append]
      have e1 : serverGiven W = [] := serverGiven_nil fun j hj => by
        rcases hW j hj with rfl | ⟨p, rs, rfl⟩ <;> rfl
      have e2 : serverGiven [i] = [] := by
        cases i <;> first | rfl | cases h6
      rw [e1, e2]; simp
    · rw [serverOutput_append, h3, g2, serverOutput_append]
      have e1 : serverOutput W = [] := by
        unfold serverOutput
        rw [List.flatMap_eq_nil_iff]
        intro j hj
        rcases hW j hj with rfl | ⟨p, rs, rfl⟩ <;> rfl
      rw [e1]
      cases i <;> cases h6 <;> simp [serverOutput, SItem.outputs]
    · have hpre : ∀ j ∈ U1 ++ W, j.Silent := by
        intro j hj
        rcases List.mem_append.mp hj with hj | hj
        · exact h4 j hj
        · rcases hW j hj with rfl | ⟨p, rs, rfl⟩ <;> trivial
      rcases r with e | e
      · refine .inl ⟨?_, g3⟩
        intro j hj
        rw [← List.append_assoc] at hj
        rcases List.mem_append.mp hj with hj | hj
        · exact hpre j hj
        · rw [List.mem_singleton.mp hj]
          cases i <;> first | trivial | cases h6
      · refine .inr ⟨_, i, e, (List.append_assoc ..).symm, hpre, ?_, g3⟩
        cases i <;> cases h6 <;> rfl
    · rcases hrd hg hc with rfl | rfl
      · cases i <;> cases h6; exact .inl rfl
      · cases i <;> cases h6; exact .inr rfl
  | inputPanic _ b p hp =>
    obtain ⟨y, hy⟩ := safe (ops ++ [.enqueueInput b])
    rw [Server.trace_append, ht] at hy
    have hp : c.state.enqueueInput b = .error p := hp
    simp [Server.trace, Server.callTrace, hp, Except.map] at hy
  | nextPanic _ b D s1 p hD hn =>
    obtain ⟨ops1, U1, h1, -⟩ := provide hD
    obtain ⟨y, hy⟩ := safe (ops1 ++ [.next])
    have h2 := Server.nextTrace_erase L s1
    rw [show s1.next L = .error p from hn] at h2
    have h3 : s1.nextTrace L = .error p := by
      cases hx : s1.nextTrace L with
      | error q => rw [hx] at h2; simp only [Server.eraseRes, Except.map] at h2; cases h2; rfl
      | ok z => rw [hx] at h2; cases h2
    rw [Server.trace_append, h1] at hy
    simp [Server.trace, Server.callTrace, h3] at hy

end ImapFlow
