import Verif.Spec.ClientStd
import Verif.Proofs.ClientAgain
import Verif.Proofs.ExampleClients
import Verif.Proofs.RestSides

/-!
# The example client without a stream
-/

namespace ImapFlow

variable {L : Lib}

/-! ## Runs -/

namespace StdClient

variable {g : HandleGenerator} {login : Bytes}

theorem run_append {x : StdClient} {as bs : List StdAct} :
    x.run L login (as ++ bs) =
      match x.run L login as with
      | none => none
      | some (y, T) =>
        match y.run L login bs with
        | none => none
        | some (z, U) => some (z, T ++ U) := by
  induction as generalizing x with
  | nil => simp only [List.nil_append, run]; split <;> simp_all
  | cons a as ih =>
    simp only [List.cons_append, run]
    cases x.step L login a with
    | none => rfl
    | some y =>
      obtain ⟨y, I⟩ := y
      simp only [ih]
      cases y.run L login as with
      | none => rfl
      | some z =>
        obtain ⟨z, U⟩ := z
        simp only
        cases z.run L login bs with
        | none => rfl
        | some w => simp [List.append_assoc]

theorem run_snoc {x z : StdClient} {T : List StdItem} {as : List StdAct} {a : StdAct} (h : x.run L login (as ++ [a]) = some (z, T)) :
    ∃ y T1 T2, x.run L login as = some (y, T1) ∧ y.step L login a = some (z, T2) ∧ T = T1 ++ T2 := by
  rw [run_append] at h
  cases h1 : x.run L login as with
  | none => rw [h1] at h; cases h
  | some y =>
    obtain ⟨y, T1⟩ := y
    rw [h1] at h
    simp only [run] at h
    cases h2 : y.step L login a with
    | none => rw [h2] at h; cases h
    | some z' =>
      obtain ⟨z', T2⟩ := z'
      rw [h2] at h
      simp only [List.append_nil, Option.some.injEq, Prod.mk.injEq] at h
      exact ⟨y, T1, T2, rfl, by rw [h2, h.1], h.2.symm⟩

/-- What holds after the items `T`; `A` is the trace of the client. -/
structure At (L : Lib) (g : HandleGenerator) (login : Bytes) (T : List StdItem) (x : StdClient) (A : List CItem) : Prop where
  trace : (Client.new g .default).trace L (stdOps T) = .ok (x.client, A)
  inv : Examples.LoginInv login x.vars A
  events : A.filterMap CItem.event? = stdEvents T
  calls : A.filterMap CItem.op? = stdCalls T
  written : stdWritten T <+: clientOutput A ∧ (x.ctl ≠ .dead → clientOutput A = stdWritten T ++ x.unwritten)
  starved : x.ctl = .reading → x.client.next L = .ok (x.client, .error (.io .needMoreInput))
  panicked : ∀ p, .panicked p ∉ T
  unexpected : ∀ b, .unexpectedOutput b ∉ T
  dead : x.ctl = .dead ↔ .ioFailed ∈ T ∨ ∃ e, .nextFailed e ∈ T

theorem start_at : At L g login [] (start g) [] where
  trace := rfl
  inv := (⟨rfl, rfl, rfl, rfl⟩ : Examples.LoginInv login .greeting [])
  events := rfl
  calls := rfl
  written := ⟨⟨[], rfl⟩, fun _ => rfl⟩
  starved := nofun
  panicked := nofun
  unexpected := nofun
  dead := ⟨nofun, by rintro (h | ⟨e, h⟩) <;> cases h⟩

/-- The result of `next` and the trace of the call. -/
theorem next_item {c c' : Client} {r : Except (Interrupt ClientError) ClientEvent} (h : c.next L = .ok (c', r)) :
    ∃ (ws : List Bytes) (i : CItem), c.trace L [.next] = .ok (c', ws.map .released ++ [i]) ∧ i.erase = some (.next r) := by
  have he := Client.nextTrace_erase L c
  rw [h] at he
  cases hn : c.nextTrace L with
  | error p => rw [hn] at he; cases he
  | ok x =>
    obtain ⟨c1, T⟩ := x
    obtain ⟨ws, i, rfl, h1, h2⟩ := Client.nextTrace_shape hn
    rw [hn] at he
    simp only [Client.eraseRes, Except.map, Except.ok.injEq, Prod.mk.injEq] at he
    obtain ⟨rfl, he⟩ := he
    refine ⟨ws, i, Client.trace_one hn, ?_⟩
    have hz : (ws.map CItem.released).filterMap CItem.erase = [] := by
      rw [List.filterMap_eq_nil_iff]
      intro a ha
      obtain ⟨w, -, rfl⟩ := List.mem_map.mp ha
      rfl
    rw [List.filterMap_append, hz, List.nil_append] at he
    cases hi : i.erase with
    | none => simp [hi] at he
    | some o => simpa [hi] using he

theorem stdOps_append (T U : List StdItem) : stdOps (T ++ U) = stdOps T ++ stdOps U := by simp [stdOps]
theorem stdEvents_append (T U : List StdItem) : stdEvents (T ++ U) = stdEvents T ++ stdEvents U := by simp [stdEvents]
theorem stdCalls_append (T U : List StdItem) : stdCalls (T ++ U) = stdCalls T ++ stdCalls U := by simp [stdCalls]
theorem stdWritten_append (T U : List StdItem) : stdWritten (T ++ U) = stdWritten T ++ stdWritten U := by simp [stdWritten]

theorem std_called (calls : List ClientOp) : stdOps (calls.map .called) = calls ∧ stdEvents (calls.map .called) = [] ∧
    stdCalls (calls.map .called) = calls ∧ stdWritten (calls.map .called) = [] := by
  induction calls with
  | nil => exact ⟨rfl, rfl, rfl, rfl⟩
  | cons op calls ih =>
    obtain ⟨h1, h2, h3, h4⟩ := ih
    rw [List.map_cons, show StdItem.called op :: calls.map .called = [StdItem.called op] ++ calls.map .called from rfl,
      stdOps_append, stdEvents_append, stdCalls_append, stdWritten_append, h1, h2, h3, h4]
    exact ⟨rfl, rfl, rfl, rfl⟩

/-- One more step. -/
theorem At.extend {x y : StdClient} {T0 T : List StdItem} {A U : List CItem} (hx : At L g login T0 x A) (hd : x.ctl ≠ .dead)
    (ht : x.client.trace L (stdOps T) = .ok (y.client, U)) (hI : Examples.LoginInv login y.vars (A ++ U))
    (he : U.filterMap CItem.event? = stdEvents T) (hc : U.filterMap CItem.op? = stdCalls T)
    (hw : stdWritten T <+: x.unwritten ++ clientOutput U ∧
      (y.ctl ≠ .dead → x.unwritten ++ clientOutput U = stdWritten T ++ y.unwritten))
    (hs : y.ctl = .reading → y.client.next L = .ok (y.client, .error (.io .needMoreInput)))
    (hp : ∀ p, .panicked p ∉ T) (hu : ∀ b, .unexpectedOutput b ∉ T)
    (hdead : y.ctl = .dead ↔ .ioFailed ∈ T ∨ ∃ e, .nextFailed e ∈ T) : At L g login (T0 ++ T) y (A ++ U) where
  trace := by rw [stdOps_append]; exact Client.trace_join hx.trace ht
  inv := hI
  events := by rw [List.filterMap_append, hx.events, he, stdEvents_append]
  calls := by rw [List.filterMap_append, hx.calls, hc, stdCalls_append]
  written := by
    rw [stdWritten_append, show clientOutput (A ++ U) = clientOutput A ++ clientOutput U by simp [clientOutput],
      hx.written.2 hd, List.append_assoc, List.append_assoc]
    exact ⟨(List.prefix_append_right_inj _).2 hw.1, fun h => by rw [hw.2 h]⟩
  starved := hs
  panicked p hm := by
    rcases List.mem_append.1 hm with hm | hm
    · exact hx.panicked p hm
    · exact hp p hm
  unexpected p hm := by
    rcases List.mem_append.1 hm with hm | hm
    · exact hx.unexpected p hm
    · exact hu p hm
  dead := by
    have h0 := mt hx.dead.2 hd
    rw [hdead]
    constructor
    · rintro (h | ⟨e, h⟩)
      · exact .inl (List.mem_append_right _ h)
      · exact .inr ⟨e, List.mem_append_right _ h⟩
    · rintro (h | ⟨e, h⟩)
      · rcases List.mem_append.1 h with h | h
        · exact (h0 (.inl h)).elim
        · exact .inl h
      · rcases List.mem_append.1 h with h | h
        · exact (h0 (.inr ⟨e, h⟩)).elim
        · exact .inr ⟨e, h⟩

theorem released_silent (ws : List Bytes) : ∀ i ∈ ws.map CItem.released, i.Silent := by
  intro i hi
  obtain ⟨w, -, rfl⟩ := List.mem_map.1 hi
  trivial

theorem clientOutput_released (ws : List Bytes) (U : List CItem) :
    clientOutput (ws.map CItem.released ++ U) = clientOutput U := by
  have : clientOutput (ws.map CItem.released) = [] := by
    induction ws with
    | nil => rfl
    | cons w ws ih => exact ih
  unfold clientOutput at this ⊢
  rw [List.flatMap_append, this, List.nil_append]

theorem _root_.ImapFlow.Client.Calls.output {c c' : Client} {calls : List ClientOp} {J : List CItem}
    (h : c.Calls L calls c' J) : clientOutput J = [] := by
  obtain ⟨h1, rfl | ⟨op, rfl, h2, h3⟩⟩ := h
  · cases h1; rfl
  · simp only [Client.trace] at h1
    split at h1
    · cases h1
    · rename_i c1 J1 h4
      cases h1
      cases op <;> first | exact (h2 rfl).elim | exact (h3 _ rfl).elim | (
        simp only [Client.callTrace, Except.map] at h4
        first | (cases h4; rfl) | (split at h4 <;> cases h4; rfl))

theorem step_at (hL : L.Lawful) {x y : StdClient} {a : StdAct} {T0 T : List StdItem} {A : List CItem}
    (hx : At L g login T0 x A) (h : x.step L login a = some (y, T)) : ∃ U, At L g login (T0 ++ T) y (A ++ U) := by
  have hk := Examples.client_kept hL g login
  obtain ⟨vars, client, ctl⟩ := x
  cases ctl with
  | dead => cases a <;> cases h
  | writing bytes =>
    cases a with
    | wrote =>
      cases h
      exact ⟨[], hx.extend nofun rfl (by simpa using hx.inv) rfl rfl
        (by simp [stdWritten, StdItem.writes, unwritten, clientOutput]) nofun (by simp) (by simp) ⟨nofun, by simp⟩⟩
    | writeFailed count =>
      cases h
      refine ⟨[], hx.extend nofun rfl (by simpa using hx.inv) rfl rfl ⟨⟨bytes.drop count, ?_⟩, fun h => (h rfl).elim⟩ nofun
        (by simp) (by simp) ⟨fun _ => .inl (by simp), fun _ => rfl⟩⟩
      simp [stdWritten, StdItem.writes, unwritten, clientOutput]
    | _ => cases h
  | reading =>
    cases a with
    | read bytes =>
      simp only [step] at h
      split at h
      · obtain ⟨z, hz⟩ := Client.trace_safe hL (Client.new_inv L g .default) (stdOps T0 ++ [.enqueueInput bytes])
        rw [Client.trace_append, hx.trace] at hz
        cases he : client.enqueueInput bytes with
        | error p => simp [Client.trace, Client.callTrace, he, Except.map] at hz
        | ok c' =>
          rw [he] at h
          cases h
          have ht : client.trace L [.enqueueInput bytes] = .ok (c', [.input bytes]) :=
            Client.trace_one (by simp [Client.callTrace, he, Except.map])
          exact ⟨[.input bytes], hx.extend nofun ht
            (hk.silent (B := []) (i := .input bytes) hx.inv trivial (Client.trace_join hx.trace ht))
            rfl rfl ⟨⟨[], rfl⟩, fun _ => rfl⟩ nofun (by simp) (by simp) ⟨nofun, by simp⟩⟩
      · cases h
    | readFailed =>
      cases h
      exact ⟨[], hx.extend nofun rfl (by simpa using hx.inv) rfl rfl ⟨⟨[], rfl⟩, fun _ => rfl⟩ nofun
        (by simp) (by simp) ⟨fun _ => .inl (by simp), fun _ => rfl⟩⟩
    | _ => cases h
  | calling =>
    cases a with
    | next =>
      simp only [step] at h
      obtain ⟨z, hz⟩ := Client.trace_safe hL (Client.new_inv L g .default) (stdOps T0 ++ [.next])
      rw [Client.trace_append, hx.trace] at hz
      cases hn : client.next L with
      | error p =>
        have he := Client.nextTrace_erase L client
        rw [hn] at he
        cases hn' : client.nextTrace L with
        | error q => simp [Client.trace, Client.callTrace, hn'] at hz
        | ok w => rw [hn'] at he; cases he
      | ok w =>
        obtain ⟨c', r⟩ := w
        rw [hn] at h
        simp only [Option.some.injEq] at h
        obtain ⟨ws, i, h1, h2⟩ := next_item hn
        have ht := Client.trace_join hx.trace h1
        have hsil : Examples.LoginInv login vars (A ++ ws.map .released) :=
          hk.silents (B := [i]) hx.inv (released_silent ws) (by simpa using ht)
        have silent : i.Silent → Examples.LoginInv login vars (A ++ (ws.map .released ++ [i])) ∧
            (ws.map CItem.released ++ [i]).filterMap CItem.event? = [] ∧ (ws.map CItem.released ++ [i]).filterMap CItem.op? = [] := by
          intro hi
          refine ⟨?_, CItem.silent_items (U := ws.map .released ++ [i]) ?_⟩
          · rw [← List.append_assoc]
            exact hk.silent (B := []) hsil hi (by simpa using ht)
          · intro j hj
            rcases List.mem_append.1 hj with hj | hj
            · exact released_silent ws j hj
            · rw [List.mem_singleton.1 hj]; exact hi
        match r, h, h2 with
        | .error (.io .needMoreInput), h, h2 =>
          have : i = .starved := by cases i <;> simp [CItem.erase] at h2 <;> rfl
          subst this
          cases h
          obtain ⟨s1, s2, s3⟩ := silent trivial
          exact ⟨_, hx.extend nofun h1 s1 s2 s3 (by rw [clientOutput_released]; exact ⟨⟨[], rfl⟩, fun _ => rfl⟩)
            (fun _ => Client.next_again hn) (by simp) (by simp) ⟨nofun, by simp⟩⟩
        | .error (.io (.output bytes)), h, h2 =>
          have : i = .output bytes := by cases i <;> simp [CItem.erase] at h2 <;> rw [h2]
          subst this
          obtain ⟨s1, s2, s3⟩ := silent trivial
          cases vars with
          | greeting =>
            rw [← List.append_assoc] at ht
            have hg := Client.trace_guard hL (T2 := []) ht
            have : (clientGist (A ++ ws.map .released)).greeted = false := hsil.2.1
            have h5 : (ClientView.of (A ++ ws.map .released)).greeted = true := hg.1
            exact absurd (this.symm.trans h5) (by simp)
          | running hd =>
            cases h
            exact ⟨_, hx.extend nofun h1 s1 s2 s3 (by rw [clientOutput_released]; simp [stdWritten, StdItem.writes,
              unwritten, clientOutput, CItem.outputs]) nofun (by simp) (by simp) ⟨nofun, by simp⟩⟩
        | .error (.error e), h, h2 =>
          have : i = .failed e := by cases i <;> simp [CItem.erase] at h2 <;> rw [h2]
          subst this
          cases h
          obtain ⟨s1, s2, s3⟩ := silent trivial
          exact ⟨_, hx.extend nofun h1 s1 s2 s3 (by rw [clientOutput_released]; exact ⟨⟨[], rfl⟩, fun _ => rfl⟩)
            nofun (by simp) (by simp) ⟨fun _ => .inr ⟨e, by simp⟩, fun _ => rfl⟩⟩
        | .ok e, h, h2 =>
          have hi : i.event? = some e := by cases i <;> simp [CItem.erase] at h2 <;> simp [CItem.event?, h2]
          rw [← List.append_assoc] at ht
          obtain ⟨v', c2, calls, flow, J, h9, h10, h11, h12⟩ := hk.event false hsil hi ht
          cases flow with
          | abort => exact (h12 rfl).elim
          | «continue» =>
          simp only [resume, h9] at h
          cases h
          obtain ⟨o1, o2, o3, o4⟩ := std_called calls
          have o0 : ∀ T, StdItem.event e :: T = [StdItem.event e] ++ T := fun _ => rfl
          have no : clientOutput (i :: J) = [] := by
            rw [show i :: J = [i] ++ J from rfl, show ∀ A B, clientOutput (A ++ B) = clientOutput A ++ clientOutput B by
              simp [clientOutput], h10.output]
            cases i <;> first | rfl | cases hi
          refine ⟨ws.map .released ++ i :: J, hx.extend nofun ?_ (by rw [← List.append_assoc]; exact h11 rfl) ?_ ?_ ?_ nofun ?_ ?_ ⟨nofun, ?_⟩⟩
          · rw [o0, stdOps_append, o1, List.append_cons (ws.map CItem.released)]
            exact Client.trace_join h1 h10.trace
          · rw [List.append_cons, List.filterMap_append, (CItem.event_items (released_silent ws) hi).1, h10.items.1, o0,
              stdEvents_append, o2]
            rfl
          · rw [List.append_cons, List.filterMap_append, (CItem.event_items (released_silent ws) hi).2, h10.items.2, o0,
              stdCalls_append, o3]
            rfl
          · rw [clientOutput_released, no, o0, stdWritten_append, o4]
            exact ⟨⟨[], rfl⟩, fun _ => rfl⟩
          · simp
          · simp
          · simp
    | _ => cases h

theorem runs_at (hL : L.Lawful) {x : StdClient} {T : List StdItem} (h : StdRuns L g login x T) : ∃ A, At L g login T x A := by
  obtain ⟨as, h⟩ := h
  induction as using snocInduction generalizing x T with
  | nil => cases h; exact ⟨[], start_at⟩
  | snoc as a ih =>
    obtain ⟨y, T1, T2, h1, h2, rfl⟩ := run_snoc h
    obtain ⟨A, hA⟩ := ih h1
    obtain ⟨U, hU⟩ := step_at hL hA h2
    exact ⟨_, hU⟩

/-- What the client hands out: LOGIN, or a beginning of it; all of it if it is reported as sent. -/
theorem login_output (hL : L.Lawful) {ops : List ClientOp} {c : Client} {A : List CItem} {v : Examples.LoginVars}
    (h : (Client.new g .default).trace L ops = .ok (c, A)) (hI : Examples.LoginInv login v A) :
    clientOutput A <+: wire (L.encodeCommand (Examples.loginCommand login)) ∧
    ∀ hd cmd, .commandSent hd cmd ∈ A.filterMap CItem.event? → cmd = Examples.loginCommand login ∧
      clientOutput A = wire (L.encodeCommand (Examples.loginCommand login)) := by
  obtain ⟨h1, h2, h3, h4, h5⟩ := ClientView.of_fields A
  have he := Client.trace_ended hL h
  have ho := fun hs => (Client.trace_inv hL h).1.open hs
  have hq : ∃ q, (ClientView.of A).enqueued = q ∧ (q = [] ∨ ∃ hd, q = [(hd, Examples.loginCommand login)]) := by
    cases v with
    | greeting => exact ⟨_, rfl, .inl hI.2.2.1⟩
    | running hd => exact ⟨_, rfl, .inr ⟨hd, hI.2.2.1⟩⟩
  obtain ⟨q, hq, hq'⟩ := hq
  have term : ∀ hd cmd, .commandSent hd cmd ∈ A.filterMap CItem.event? →
      ∃ en ∈ (ClientView.of A).ended, en.event = .commandSent hd cmd := by
    intro hd cmd hm
    obtain ⟨i, hi, hie⟩ := List.mem_filterMap.1 hm
    have : .commandSent hd cmd ∈ clientTerminals A :=
      List.mem_filterMap.2 ⟨i, hi, by simp [CItem.terminal?, hie, ClientEvent.isTerminal]⟩
    rw [← h4] at this
    obtain ⟨en, h6, h7⟩ := List.mem_map.1 this
    exact ⟨en, h6, h7⟩
  rw [← h5]
  unfold EndedOk at he
  rw [hq] at he
  cases hen : (ClientView.of A).ended with
  | nil =>
    rw [hen] at term
    refine ⟨?_, fun hd cmd hm => by obtain ⟨en, h6, -⟩ := term hd cmd hm; cases h6⟩
    by_cases hs : (ClientView.of A).sent = []
    · simp [hs]
    · obtain ⟨x, e1, -, e2⟩ := ho hs
      rw [hq, hen] at e1
      rcases hq' with rfl | ⟨hd, rfl⟩
      · simp at e1
      · simp only [List.length_nil, List.getElem?_cons_zero, Option.some.injEq] at e1
        subst e1
        obtain ⟨pre, post, e3, e4, -⟩ := e2
        refine ⟨wire post, ?_⟩
        rw [show ∀ b : Bytes, List.flatMap ClientEnded.sent [] ++ b = b from fun _ => rfl, e4, ← wire_append, e3]
  | cons en es =>
    have hone : es = [] ∧ ∃ hd, q = [(hd, Examples.loginCommand login)] := by
      rw [hen] at he
      obtain ⟨x, e1, -⟩ := he 0 en rfl
      rcases hq' with rfl | ⟨hd, rfl⟩
      · simp at e1
      · refine ⟨?_, hd, rfl⟩
        cases es with
        | nil => rfl
        | cons e es => obtain ⟨x, e1, -⟩ := he 1 e rfl; simp at e1
    obtain ⟨rfl, hd, rfl⟩ := hone
    have hs : (ClientView.of A).sent = [] := Classical.byContradiction fun hs => by
      obtain ⟨x, e1, -, -⟩ := ho hs
      rw [hq, hen] at e1
      simp at e1
    obtain ⟨x, e1, e2⟩ := he 0 en (by rw [hen]; rfl)
    simp only [List.getElem?_cons_zero, Option.some.injEq] at e1
    subst e1
    rw [hs]
    simp only [List.flatMap_cons, List.flatMap_nil, List.append_nil]
    rcases e2 with ⟨e6, e3⟩ | ⟨st, e3, pre, d, post, e4, e5⟩
    · rw [e3]
      refine ⟨List.prefix_refl _, fun hd' cmd hm => ⟨?_, rfl⟩⟩
      obtain ⟨en', h6, h7⟩ := term hd' cmd hm
      rw [hen, List.mem_singleton] at h6
      rw [h6, e6] at h7
      cases h7
      rfl
    · refine ⟨⟨wire (.literal d .sync :: post), ?_⟩, fun hd' cmd hm => ?_⟩
      · rw [e5, ← wire_append, e4]
      · obtain ⟨en', h6, h7⟩ := term hd' cmd hm
        rw [hen, List.mem_singleton] at h6
        rw [h6, e3] at h7
        cases h7

/-- An event is taken while nothing is being written. -/
theorem step_event {x y : StdClient} {a : StdAct} {T : List StdItem} {e : ClientEvent} (h : x.step L login a = some (y, T))
    (he : e ∈ stdEvents T) : y.ctl = .calling ∨ ∃ p, .panicked p ∈ T := by
  obtain ⟨vars, client, ctl⟩ := x
  simp only [step] at h
  split at h
  · split at h
    · cases h; cases he
    · rename_i c' r hn
      simp only [Option.some.injEq] at h
      unfold resume at h
      split at h
      · cases h; cases he
      · split at h <;> cases h <;> cases he
      · cases h; cases he
      · split at h
        · cases h; exact .inr ⟨_, by simp; rfl⟩
        · cases h; exact .inl rfl
  · split at h
    · split at h <;> cases h <;> cases he
    · cases h
  · cases h; cases he
  · cases h; cases he
  · cases h; cases he
  · cases h

/-- If LOGIN is reported as sent, it has been written. -/
theorem sent_written (hL : L.Lawful) {x : StdClient} {T : List StdItem} (h : StdRuns L g login x T) {hd : RawHandle}
    {cmd : Command} (hs : .commandSent hd cmd ∈ stdEvents T) :
    stdWritten T = wire (L.encodeCommand (Examples.loginCommand login)) := by
  obtain ⟨as, h⟩ := h
  induction as using snocInduction generalizing x T with
  | nil => cases h; cases hs
  | snoc as a ih =>
    obtain ⟨A, hA⟩ := runs_at hL ⟨_, h⟩
    obtain ⟨h3, h4⟩ := login_output hL hA.trace hA.inv
    obtain ⟨y, T1, T2, h1, h2, rfl⟩ := run_snoc h
    have hs' := hs
    rw [stdEvents_append] at hs
    rcases List.mem_append.1 hs with hs | hs
    · have hw := ih hs h1
      obtain ⟨W, hW⟩ := hA.written.1.trans h3
      rw [stdWritten_append, hw, List.append_assoc] at hW
      have := List.append_right_eq_self.1 hW
      rw [stdWritten_append, hw, (List.append_eq_nil_iff.1 this).1, List.append_nil]
    · rcases step_event h2 hs with h5 | ⟨p, h5⟩
      · have := hA.written.2 (by rw [h5]; nofun)
        rw [(h4 hd cmd (by rw [hA.events]; exact hs')).2] at this
        rw [this]
        simp [unwritten, h5]
      · exact (hA.panicked p (List.mem_append_right _ h5)).elim

/-- A read without bytes, and then `next`: nothing changes. -/
theorem spin (hL : L.Lawful) {x : StdClient} {T : List StdItem} (h : StdRuns L g login x T) (hr : x.ctl = .reading) :
    x.run L login [.read [], .next] = some (x, [.read [], .starved]) := by
  obtain ⟨A, hA⟩ := runs_at hL h
  have hs := hA.starved hr
  obtain ⟨vars, client, ctl⟩ := x
  cases hr
  obtain ⟨z, hz⟩ := Client.trace_safe hL (Client.new_inv L g .default) (stdOps T ++ [.enqueueInput []])
  rw [Client.trace_append, hA.trace] at hz
  cases he : client.enqueueInput [] with
  | error p => simp [Client.trace, Client.callTrace, he, Except.map] at hz
  | ok c' =>
    cases Client.enqueueInput_nil he
    simp only at hs
    simp [run, step, he, hs, resume]

end StdClient

end ImapFlow
