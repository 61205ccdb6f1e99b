import Verif.Proofs.EndsVisible
import Verif.Spec.FullSamples
import Verif.Spec.ExampleSamples
import Verif.Spec.ClientStd

/-!
# C84: A panic is the last thing that happens

A stream whose state panics, whose TLS connection is broken or whose `decrypt` does not end, a program that panics, and a
session that panics or hangs do nothing afterwards: nothing is read or written, no event is reported, no method is called.
-/

namespace ImapFlow

variable {K σ S ε ev ι : Type}

/-- A stream without TLS: nothing follows a panic, and nothing can be done with the stream. -/
theorem C84_stream {M : Machine σ ε ev ι} {c c' : StreamConf σ} {as : List (StreamAct ι)}
    {pre post : List (StreamItem ε ev ι)} {x : StreamItem ε ev ι}
    (h : StreamConf.run M c as = some (c', pre ++ x :: post)) (hx : x.ends = true) :
    post = [] ∧ ∀ a, StreamConf.step M c' a = none := by
  obtain ⟨h1, h2⟩ := StreamConf.run_ends h
  exact ⟨h1 pre x post rfl hx, StreamConf.step_dead (h2 ⟨x, by simp, hx⟩)⟩

/-- A stream: nothing follows a panic, a broken connection or an endless `decrypt`. -/
theorem C84_full_stream {M : Machine σ ε ev ι} {c c' : FullStream K σ} {as : List (StreamAct ι)}
    {pre post : List (FullItem ε ev ι)} {x : FullItem ε ev ι}
    (h : FullStream.run M c as = some (c', pre ++ x :: post)) (hx : x.ends = true) :
    post = [] ∧ ∀ a, FullStream.step M c' a = none := by
  obtain ⟨h1, h2⟩ := FullStream.run_ends h
  obtain ⟨k, hk⟩ := (FullItem.ends_iff x).mp hx
  have hl : c'.ctl = k := h2 x (by simp) k hk
  exact ⟨h1 pre x post rfl hx, FullStream.step_over (FullItem.leaves_over (i := x) (by rw [hk, hl]))⟩

/-- An example program: nothing follows a panic. -/
theorem C84_program {P : Program σ S ev ι} {M : Machine S ε ev ι} {x x' : Running K σ S} {as : List ProgramAct}
    {pre post : List (ProgramItem ε ev ι)} {i : ProgramItem ε ev ι}
    (h : P.run M x as = some (x', pre ++ i :: post)) (hi : i.ends = true) :
    post = [] ∧ x' = .dead ∧ ∀ a, P.step M x' a = none := by
  obtain ⟨h1, h2⟩ := Program.run_ends h
  have hd : x' = .dead := h2 ⟨i, by simp, hi⟩
  exact ⟨h1 pre i post rfl hi, hd, Program.step_over (.inl hd)⟩

/-- The example client without a stream: nothing follows a panic. -/
theorem C84_client_std {L : Lib} {g : HandleGenerator} {login : Bytes} {x : StdClient} {pre post : List StdItem} {i : StdItem}
    (h : StdRuns L g login x (pre ++ i :: post)) (hi : i.ends = true) :
    post = [] ∧ ∀ a, x.step L login a = none := by
  obtain ⟨as, h⟩ := h
  obtain ⟨h1, h2⟩ := StdClient.run_ends h
  have hd : x.ctl = .dead := h2 ⟨i, by simp, hi⟩
  exact ⟨h1 pre i post rfl hi, fun a => by cases a <;> simp [StdClient.step, hd]⟩

/-- A session: nothing follows a panic or an endless `decrypt`; in the first case the task has ended, in the second it
never does. -/
theorem C84_session {L : Lib} {g : HandleGenerator} {p p' : Proxy K} {as : List ProxyAct} {pre post : List ProxyItem}
    {i : ProxyItem} (h : p.run L g as = some (p', pre ++ i :: post)) (hi : i.ends = true) :
    post = [] ∧ (i = .clientTls .hung ∨ i = .serverTls .hung → p' = .hung) ∧
    (i ≠ .clientTls .hung → i ≠ .serverTls .hung → p' = .dead) ∧ ∀ a, p'.step L g a = none := by
  obtain ⟨h1, h2⟩ := Proxy.run_ends h
  obtain ⟨k, hk⟩ := (ProxyItem.ends_iff i).mp hi
  have hl : p'.IsLeft k := h2 i (by simp) k hk
  refine ⟨h1 pre i post rfl hi, ?_, ?_, ?_⟩
  · rintro (rfl | rfl) <;> simp only [ProxyItem.leaves, Option.some.injEq] at hk <;> rw [← hk] at hl <;> exact hl
  · intro n1 n2
    cases k with
    | true => exact hl
    | false => unfold ProxyItem.leaves at hk; split at hk <;> simp_all
  · intro a
    rcases hl.over with rfl | rfl | rfl <;> cases a <;> rfl

/-- Conversely, a stream, a program or `client_std.rs` is stopped by a panic only if the panic is visible as the last thing that
happened. -/
theorem C84_visible :
    (∀ (M : Machine σ ε ev ι) (tls : Option (Tls K)) (s : σ) as c T,
      FullStream.run M (.new tls s) as = some (c, T) → c.ctl = .at .dead → ∃ pre p, T = pre ++ [.stream (.panicked p)]) ∧
    (∀ (P : Program σ S ev ι) (M : Machine S ε ev ι) vars (stream : FullStream K S) as T,
      P.run M (.running vars stream) as = some (.dead, T) → ∃ pre i, T = pre ++ [i] ∧ i.ends = true) ∧
    ∀ (L : Lib) (g : HandleGenerator) (login : Bytes) (x : StdClient) T,
      StdRuns L g login x T → x.ctl = .dead → ∃ pre i, T = pre ++ [i] ∧ i.ends = true := by
  refine ⟨?_, ?_, ?_⟩
  · intro M tls s as c T h hd
    obtain ⟨i, hi, hl⟩ := FullStream.run_says h (by cases tls <;> simp [FullStream.new, FullStream.insecure, FullStream.secure]) hd
    obtain ⟨pre, post, rfl⟩ := List.append_of_mem hi
    have := (C84_full_stream h ((FullItem.ends_iff i).mpr ⟨_, hl⟩)).1
    subst this
    unfold FullItem.leaves at hl
    split at hl
    · exact ⟨pre, _, rfl⟩
    all_goals simp at hl
  · intro P M vars stream as T h
    obtain ⟨i, hi, he⟩ := Program.run_says h (by simp)
    obtain ⟨pre, post, rfl⟩ := List.append_of_mem hi
    have := (C84_program h he).1
    subst this
    exact ⟨pre, i, rfl, he⟩
  · intro L g login x T h hd
    obtain ⟨as, h'⟩ := h
    obtain ⟨i, hi, he⟩ := StdClient.run_says h' (by simp [StdClient.start]) hd
    obtain ⟨pre, post, rfl⟩ := List.append_of_mem hi
    have := (C84_client_std ⟨as, h'⟩ he).1
    subst this
    exact ⟨pre, i, rfl, he⟩

/-- Conversely, a session is stopped by a panic, or occupies its thread for ever, only if this is visible as the last thing that
happened. -/
theorem C84_session_visible {L : Lib} {g gc : HandleGenerator} {tc ts : Option (Tls K)} {p : Proxy K} {as : List ProxyAct}
    {T : List ProxyItem} (h : (Proxy.start tc ts gc).run L g as = some (p, T)) :
    (p = .dead → ∃ pre e, T = pre ++ [.panicked e] ∨ T = pre ++ [.client (.panicked e)] ∨ T = pre ++ [.server (.panicked e)]) ∧
    (p = .hung → ∃ pre, T = pre ++ [.clientTls .hung] ∨ T = pre ++ [.serverTls .hung]) := by
  refine ⟨fun hp => ?_, fun hp => ?_⟩
  · obtain ⟨i, hi, hl⟩ := Proxy.run_visible true h (by intro hx; cases hx) hp
    obtain ⟨pre, post, rfl⟩ := List.append_of_mem hi
    have := (C84_session h ((ProxyItem.ends_iff i).mpr ⟨_, hl⟩)).1
    subst this
    unfold ProxyItem.leaves at hl
    split at hl
    · exact ⟨pre, _, .inr (.inl rfl)⟩
    · exact ⟨pre, _, .inr (.inr rfl)⟩
    · exact ⟨pre, _, .inl rfl⟩
    all_goals simp at hl
  · obtain ⟨i, hi, hl⟩ := Proxy.run_visible false h (by intro hx; cases hx) hp
    obtain ⟨pre, post, rfl⟩ := List.append_of_mem hi
    have := (C84_session h ((ProxyItem.ends_iff i).mpr ⟨_, hl⟩)).1
    subst this
    refine ⟨pre, ?_⟩
    unfold ProxyItem.leaves at hl
    split at hl
    case h_4 => exact .inl rfl
    case h_5 => exact .inr rfl
    all_goals simp at hl

/-- The end of a session or a program is final too. -/
theorem C84_over {L : Lib} {g : HandleGenerator} {P : Program σ S ev ι} {M : Machine S ε ev ι} :
    (∀ a, (.over : Proxy K).step L g a = none) ∧ ∀ a, P.step M (.over : Running K σ S) a = none :=
  ⟨fun a => by cases a <;> rfl, fun a => by cases a <;> rfl⟩

/-- A stream with a state that panics when it gets input. -/
def C84.machine : Machine Unit Unit Unit Unit where
  enqueueInput _ _ := .error .unreachableCode
  next s := .ok (s, .error (.io .needMoreInput))
  user s _ := .ok s

example : ((FullStream.run C84.machine (.insecure () : FullStream Nat Unit) [.callNext, .read [65]]).map (·.2)) =
    some ([.stream .callNext, .stream (.poll (.error (.io .needMoreInput))), .stream (.read [65])] ++
      .stream (.panicked .unreachableCode) :: []) := by rfl

/-- A session that panics (C40). -/
example : ∃ p pre q, ProxySample.run ProxySample.broken = some (p, pre ++ .panicked q :: []) := by
  have h : ((ProxySample.run ProxySample.broken).map fun x => x.2.getLast?) = some (some (.panicked .unwrapFailed)) := by
    decide +kernel
  cases hr : ProxySample.run ProxySample.broken with
  | none => rw [hr] at h; simp at h
  | some x =>
    obtain ⟨p, T⟩ := x
    rw [hr] at h
    simp only [Option.map_some, Option.some.injEq] at h
    obtain ⟨pre, hT⟩ := List.getLast?_eq_some_iff.mp h
    exact ⟨p, pre, _, by rw [hT]⟩

/-- `client_std.rs` when the connection fails. -/
example : (((StdClient.start ClientSample.g).run Toy.lib (ClientSample.str "x") [.next, .readFailed]).map (·.2)) =
    some ([.starved] ++ .ioFailed :: []) := by decide +kernel

/-- A program whose connection ends. -/
example : ((ExampleSample.runLogin [ExampleSample.poll, ExampleSample.rd []]).map fun x => x.2.map ProgramItem.ends) =
    some [false, false, false, false, true] := by decide +kernel

end ImapFlow
