import Verif.Proofs.Net
import Verif.Proofs.ClientSegments
import Verif.Proofs.ClientLiteral
import Verif.Proofs.ServerReplies

/-!
# What a side reads if its input is a sequence of messages
-/

namespace ImapFlow

variable {L : Lib}

theorem clientDecoded_append (T U : List CItem) : clientDecoded L (T ++ U) = clientDecoded L T ++ clientDecoded L U := by
  simp [clientDecoded]

theorem clientGreeted_append (T U : List CItem) : clientGreeted (T ++ U) ↔ clientGreeted T ∨ clientGreeted U := by
  unfold clientGreeted
  constructor
  · rintro ⟨i, hi, h⟩
    rcases List.mem_append.mp hi with hi | hi
    · exact .inl ⟨i, hi, h⟩
    · exact .inr ⟨i, hi, h⟩
  · rintro (⟨i, hi, h⟩ | ⟨i, hi, h⟩)
    · exact ⟨i, by simp [hi], h⟩
    · exact ⟨i, by simp [hi], h⟩

theorem clientGreeted_single (i : CItem) : clientGreeted [i] ↔ ∃ g, i.event? = some (.greetingReceived g) := by
  simp [clientGreeted]

/-- The greeting is the first message and only the first. -/
def GreetingFirst (ms : List ServerMessage) : Prop :=
  ∀ (n : Nat) m, ms[n]? = some m → ((∃ g, m = .greeting g) ↔ n = 0)

theorem response_decoded {w : Bytes} {e : ClientEvent} {r : Response} (h : e.response? = some r) :
    (CItem.received w e).decoded L = [.response r] := by
  cases e <;> simp_all [CItem.decoded, ClientEvent.response?]

theorem ServerMessage.bytes_wire (m : ServerMessage) : m.bytes L = match m with
    | .greeting g => wire (L.encodeGreeting g)
    | .response _ r => wire (L.encodeResponse r) := by
  cases m <;> rfl

theorem prefix_drop_of_eq {a b x y : Bytes} (h1 : a ++ x <+: b ++ y) (h : a = b) : x <+: y := by
  subst h
  exact (List.prefix_append_right_inj a).mp h1

theorem flatMap_take_drop {α : Type} (f : α → Bytes) (l : List α) (k : Nat) :
    l.flatMap f = (l.take k).flatMap f ++ (l.drop k).flatMap f := by
  rw [← List.flatMap_append, List.take_append_drop]

theorem Client.reads {g : HandleGenerator} {o : ClientOptions} {ops : List ClientOp} {c : Client}
    {T1 T2 : List CItem} {ms : List ServerMessage} (hL : L.Lawful)
    (h : (Client.new g o).trace L ops = .ok (c, T1 ++ T2)) (hf : GreetingFirst ms)
    (hrt : ∀ m ∈ ms, m.RoundTrip L o) (hg : clientGiven (T1 ++ T2) <+: ms.flatMap (ServerMessage.bytes L)) :
    ∃ k, k ≤ ms.length ∧ clientTaken T1 = (ms.take k).flatMap (ServerMessage.bytes L) ∧
      clientDecoded L T1 = (ms.take k).map ServerMessage.content ∧ (∀ e, .failed e ∉ T1) ∧
      (clientGreeted T1 ↔ 0 < k) := by
  induction T1 using snocInduction generalizing T2 with
  | nil =>
    refine ⟨0, Nat.zero_le _, rfl, rfl, by simp, ?_⟩
    constructor
    · rintro ⟨i, hi, -⟩; cases hi
    · omega
  | snoc T i ih =>
    have h' : (Client.new g o).trace L ops = .ok (c, T ++ (i :: T2)) := by simpa using h
    obtain ⟨k, h1, h2, h3, h4, h5⟩ := ih h' (by simpa using hg)
    obtain ⟨c1, hinv⟩ := Client.trace_prefix_inv hL h'
    have hgd := Client.trace_guard hL h'
    have hgr := ClientView.of_greeted T
    by_cases ht : i.taken = []
    · -- nothing is read
      have hread : (∀ w e, i ≠ .received w e) ∧ (∀ w, i ≠ .released w) ∧ ∀ e, i ≠ .failed e := by
        refine ⟨?_, ?_, ?_⟩
        · rintro w e rfl
          obtain ⟨-, -, ⟨-, gr, -, hm⟩ | ⟨-, r, -, hm⟩⟩ := hgd
          · exact hm.complete.ne_nil ht
          · exact hm.complete.ne_nil ht
        · rintro w rfl
          obtain ⟨-, -, -, q, -, hm⟩ := hgd
          exact hm.complete.ne_nil ht
        · rintro e rfl
          obtain ⟨-, -, hm1, hm2⟩ := hgd
          cases hv : (ClientView.of T).greeted with
          | true => exact (hm2 hv).complete.ne_nil ht
          | false => exact (hm1 hv).complete.ne_nil ht
      refine ⟨k, h1, ?_, ?_, ?_, ?_⟩
      · rw [clientTaken_append, h2]
        simp [clientTaken, ht]
      · rw [clientDecoded_append, h3]
        have : i.decoded L = [] := by
          cases i with
          | received w e => exact absurd rfl (hread.1 w e)
          | released w => exact absurd rfl (hread.2.1 w)
          | _ => rfl
        simp [clientDecoded, this]
      · intro e he
        rcases List.mem_append.mp he with he | he
        · exact h4 e he
        · exact hread.2.2 e (List.mem_singleton.mp he).symm
      · rw [clientGreeted_append, h5]
        have : ¬ clientGreeted [i] := by
          rw [clientGreeted_single]
          rintro ⟨gr, he⟩
          cases i with
          | received w e => exact absurd rfl (hread.1 w e)
          | sent e =>
            cases he
            obtain ⟨-, _, _, _, -, ⟨h, -⟩ | ⟨h, -⟩ | ⟨h, -⟩ | ⟨h, -⟩⟩ := hgd <;> cases h
          | _ => cases he
        simp [this]
    · -- the next message is read
      obtain ⟨hp, hc1, hc2⟩ := Client.taken_complete hinv hgd ht
      have hgiven : clientGiven T <+: ms.flatMap (ServerMessage.bytes L) := by
        refine List.IsPrefix.trans ?_ hg
        rw [List.append_assoc, clientGiven_append]
        exact List.prefix_append ..
      rw [Client.given_eq hinv, flatMap_take_drop _ ms k] at hgiven
      have hun := prefix_drop_of_eq hgiven h2
      cases hd : ms.drop k with
      | nil =>
        rw [hd] at hun
        have : i.taken = [] := List.prefix_nil.mp (hp.trans hun)
        exact absurd this ht
      | cons m rest =>
        have hmk : ms[k]? = some m := by
          have : (ms.drop k)[0]? = some m := by rw [hd]; rfl
          simpa using this
        have hmem : m ∈ ms := List.mem_of_getElem? hmk
        have hkl : k < ms.length := (List.getElem?_eq_some_iff.mp hmk).1
        rw [hd] at hun
        simp only [List.flatMap_cons] at hun
        have hX := hp.trans hun
        have htake : ms.take (k + 1) = ms.take k ++ [m] := by
          rw [List.take_add_one, hmk]; rfl
        have hround := hrt m hmem
        have hfirst := hf k m hmk
        -- it is enough to know what is read
        have key : i.taken = m.bytes L → i.decoded L = [m.content] → (∀ e, i ≠ .failed e) →
            (clientGreeted T ∨ clientGreeted [i]) →
            ∃ k, k ≤ ms.length ∧ clientTaken (T ++ [i]) = (ms.take k).flatMap (ServerMessage.bytes L) ∧
              clientDecoded L (T ++ [i]) = (ms.take k).map ServerMessage.content ∧ (∀ e, .failed e ∉ T ++ [i]) ∧
              (clientGreeted (T ++ [i]) ↔ 0 < k) := by
          intro e1 e2 e3 e4
          refine ⟨k + 1, hkl, ?_, ?_, ?_, ?_⟩
          · rw [clientTaken_append, h2, htake, List.flatMap_append]
            simp [clientTaken, e1]
          · rw [clientDecoded_append, h3, htake, List.map_append]
            simp [clientDecoded, e2]
          · intro e he
            rcases List.mem_append.mp he with he | he
            · exact h4 e he
            · exact e3 e (List.mem_singleton.mp he).symm
          · rw [clientGreeted_append]
            exact ⟨fun _ => by omega, fun _ => e4⟩
        cases m with
        | greeting gr =>
          have hk0 : k = 0 := hfirst.mp ⟨gr, rfl⟩
          have hng : ¬ clientGreeted T := by rw [h5]; omega
          have hv : (ClientView.of T).greeted = false := by
            cases hv : (ClientView.of T).greeted with
            | true => exact absurd (hgr.mp hv) hng
            | false => rfl
          have hround : IsMessage (greetingFraming L o.crlfRelaxed) (ServerMessage.bytes L (.greeting gr)) gr := hround
          have he : i.taken = ServerMessage.bytes L (.greeting gr) :=
            (hc1 hng).unique hround.complete hX (List.prefix_append ..)
          cases i with
          | received w e =>
            obtain ⟨-, -, ⟨-, gr', rfl, hm⟩ | ⟨hx, -⟩⟩ := hgd
            · have he : w = _ := he
              rw [he] at hm
              have := hm.det hround
              subst this
              refine key he rfl (by simp) (.inr ?_)
              rw [clientGreeted_single]
              exact ⟨gr', rfl⟩
            · rw [hv] at hx; cases hx
          | released w =>
            have := hgd.1
            rw [hv] at this; cases this
          | failed e =>
            have hx := hgd.2.2.1 hv
            have he : e.bytes = _ := he
            rcases hx with ⟨w, x, rfl, hx⟩ | ⟨w, rfl, hx⟩
            · have he : w = _ := he
              rw [he] at hx
              exact absurd hx hround.not_undecodable
            · have he : w = _ := he
              rw [he] at hx
              exact absurd hround hx.not_message
          | _ => exact absurd rfl ht
        | response hd' r =>
          have hk0 : 0 < k := by
            rcases Nat.eq_zero_or_pos k with h0 | h0
            · obtain ⟨g', hg'⟩ := hfirst.mpr h0
              cases hg'
            · exact h0
          have hgd' : clientGreeted T := h5.mpr hk0
          have hv := hgr.mpr hgd'
          have hround : IsMessage (responseFraming L o.crlfRelaxed) (ServerMessage.bytes L (.response hd' r)) r := hround
          have he : i.taken = ServerMessage.bytes L (.response hd' r) :=
            (hc2 hgd').unique hround.complete hX (List.prefix_append ..)
          cases i with
          | received w e =>
            obtain ⟨-, -, ⟨hx, -⟩ | ⟨-, r', hx, hm⟩⟩ := hgd
            · rw [hv] at hx; cases hx
            · have he : w = _ := he
              rw [he] at hm
              have := hm.det hround
              subst this
              exact key he (response_decoded (route_response hx)) (by simp) (.inl hgd')
          | released w =>
            obtain ⟨-, -, -, q, -, hm⟩ := hgd
            have he : w = _ := he
            have hdec : (CItem.released w).decoded L = [.response r] := by
              rw [he] at hm
              have := hm.det hround
              subst this
              obtain ⟨_, _, -, -, -, -, hd⟩ := hm
              have hd : L.decodeResponse _ = _ := hd
              simp only [CItem.decoded, he, hd]
            exact key he hdec (by simp) (.inl hgd')
          | failed e =>
            have hx := hgd.2.2.2 hv
            have he : e.bytes = _ := he
            rcases hx with ⟨w, x, rfl, hx⟩ | ⟨w, rfl, hx⟩
            · have he : w = _ := he
              rw [he] at hx
              exact absurd hx hround.not_undecodable
            · have he : w = _ := he
              rw [he] at hx
              exact absurd hround hx.not_message
          | _ => exact absurd rfl ht

/-- A starved client has read every message that arrived completely. -/
theorem Client.starved_reads {g : HandleGenerator} {o : ClientOptions} {ops : List ClientOp} {c : Client}
    {T1 T2 : List CItem} {ms : List ServerMessage} (hL : L.Lawful)
    (h : (Client.new g o).trace L ops = .ok (c, T1 ++ .starved :: T2)) (hf : GreetingFirst ms)
    (hrt : ∀ m ∈ ms, m.RoundTrip L o) (hg : clientGiven T1 = ms.flatMap (ServerMessage.bytes L))
    {k : Nat} (hk : k ≤ ms.length) (ht : clientTaken T1 = (ms.take k).flatMap (ServerMessage.bytes L))
    (hgr : clientGreeted T1 ↔ 0 < k) : k = ms.length := by
  obtain ⟨c1, hinv⟩ := Client.trace_prefix_inv hL h
  obtain ⟨-, rest, h1, h2, h3⟩ := Client.trace_guard hL h
  have he : rest = clientUnread T1 := by
    have := Client.of_given (w := []) (rest := rest) hinv (by simpa using h1)
    simpa using this
  rw [Client.given_eq hinv, flatMap_take_drop _ ms k, ht, List.append_cancel_left_eq, ← he] at hg
  rcases Nat.lt_or_ge k ms.length with hlt | hge
  · exfalso
    obtain ⟨m, hm⟩ : ∃ m, ms[k]? = some m := ⟨ms[k], List.getElem?_eq_getElem hlt⟩
    have hd : ms.drop k = m :: ms.drop (k + 1) := by
      rw [List.drop_eq_getElem_cons hlt]
      rw [List.getElem?_eq_getElem hlt] at hm
      cases hm; rfl
    have hp : m.bytes L <+: rest := by
      rw [hg, hd, List.flatMap_cons]
      exact List.prefix_append ..
    have hround := hrt m (List.mem_of_getElem? hm)
    have hfirst := hf k m hm
    have hvg := ClientView.of_greeted T1
    cases m with
    | greeting gr =>
      have hk0 : k = 0 := hfirst.mp ⟨gr, rfl⟩
      have hv : (ClientView.of T1).greeted = false := by
        cases hv : (ClientView.of T1).greeted with
        | true => have := hgr.mp (hvg.mp hv); omega
        | false => rfl
      exact (IsMessage.complete hround).not_unfinished hp (h2 hv)
    | response hd' r =>
      have hk0 : 0 < k := by
        rcases Nat.eq_zero_or_pos k with h0 | h0
        · obtain ⟨g', hg'⟩ := hfirst.mpr h0
          cases hg'
        · exact h0
      exact (IsMessage.complete hround).not_unfinished hp (h3 (hvg.mpr (hgr.mpr hk0)))
  · omega

/-! ## Server -/

/-- A read of a server outside AUTHENTICATE and IDLE: a command or a literal that is too long. -/
def PlainRead (L : Lib) (o : ServerOptions) (u : SItem) : Prop :=
  (∃ w c, u = .received w (.commandReceived c) ∧ c.isRegular = true ∧ IsMessage (commandFraming L o) w c ∧
    w.length ≤ o.maxCommandSize) ∨
  ∃ w rs, u = .failed (.literalTooLong w) rs ∧ Discarded L o .command (.literalTooLong w) rs

theorem PlainRead.complete {o : ServerOptions} {u : SItem} (h : PlainRead L o u) :
    ServerPhase.Complete L o .command u.taken ∧ u.taken.length ≤ o.maxCommandSize ∧ u.reads = true := by
  rcases h with ⟨w, c, rfl, -, h, hl⟩ | ⟨w, rs, rfl, h⟩
  · exact ⟨h.complete, hl, rfl⟩
  · exact ⟨Discarded.complete h (by simp), h.1, rfl⟩

theorem Command.event_regular {c : Command} (h : c.isRegular = true) : c.event = .commandReceived c := by
  obtain ⟨o, ho⟩ := Command.body_of_regular h
  simp [Command.event, ho]

theorem serverTaken_filter (T : List SItem) : serverTaken T = (T.filter SItem.reads).flatMap SItem.taken := by
  induction T with
  | nil => rfl
  | cons i T ih =>
    have : serverTaken (i :: T) = i.taken ++ serverTaken T := by simp [serverTaken]
    rw [this, ih, List.filter_cons]
    cases hr : i.reads with
    | true => simp
    | false =>
      have : i.taken = [] := by cases i <;> first | rfl | cases hr
      simp [this]

theorem Server.reads {g : HandleGenerator} {o : ServerOptions} {gr : Greeting} {ops : List ServerOp} {s : Server}
    {T1 T2 : List SItem} {us : List SItem} (h : (Server.new g o gr).trace L ops = .ok (s, T1 ++ T2))
    (hmax : 0 < o.maxCommandSize) (hus : ∀ u ∈ us, PlainRead L o u) (hg : serverGiven T1 <+: us.flatMap SItem.taken) :
    ∃ k, k ≤ us.length ∧ T1.filter SItem.reads = us.take k ∧ serverPhase T1 = .command := by
  induction T1 using snocInduction generalizing T2 with
  | nil => exact ⟨0, Nat.zero_le _, rfl, rfl⟩
  | snoc T i ih =>
    have h' : (Server.new g o gr).trace L ops = .ok (s, T ++ (i :: T2)) := by simpa using h
    have hgiven : serverGiven T <+: us.flatMap SItem.taken := by
      refine List.IsPrefix.trans ?_ hg
      rw [serverGiven_append]
      exact List.prefix_append ..
    obtain ⟨k, h1, h2, h3⟩ := ih h' hgiven
    obtain ⟨s1, hinv⟩ := Server.prefix_inv h'
    have hgd := Server.trace_guard h'
    cases hr : i.reads with
    | false =>
      refine ⟨k, h1, ?_, ?_⟩
      · rw [List.filter_append, h2]
        simp [hr]
      · exact Server.phase_command (T := [i]) (T2 := T2) (by simpa using h) (by simpa using hr) h3
    | true =>
      rw [Server.given_eq hinv, flatMap_take_drop _ us k] at hgiven
      have hun := prefix_drop_of_eq hgiven (by rw [serverTaken_filter, h2])
      have hp := Server.taken_prefix hinv hgd
      have hph := ServerView.of_phase gr T
      rw [h3] at hph
      cases hd : us.drop k with
      | nil =>
        rw [hd] at hun
        have hnil : i.taken = [] := List.prefix_nil.mp (hp.trans hun)
        exfalso
        cases i with
        | received w e =>
          obtain ⟨-, -, -, htk, -⟩ := hgd
          rw [hph] at htk
          obtain ⟨c, hm, -⟩ := htk
          exact hm.complete.ne_nil hnil
        | failed e rs =>
          obtain ⟨-, -, hdis, -⟩ := hgd
          rw [hph] at hdis
          by_cases hx : ∃ w', e = .commandTooLong w'
          · obtain ⟨w', rfl⟩ := hx
            obtain ⟨h4, -, -⟩ := hdis.tooLong
            have hnil : w' = [] := hnil
            rw [hnil] at h4
            simp at h4
            omega
          · exact (hdis.complete fun w' hw' => hx ⟨w', hw'⟩ : Complete (commandFraming L o) _).ne_nil hnil
        | _ => cases hr
      | cons u rest =>
        have huk : us[k]? = some u := by
          have : (us.drop k)[0]? = some u := by rw [hd]; rfl
          simpa using this
        have hkl : k < us.length := (List.getElem?_eq_some_iff.mp huk).1
        have hu := hus u (List.mem_of_getElem? huk)
        rw [hd] at hun
        simp only [List.flatMap_cons] at hun
        have hX := hp.trans hun
        have htake : us.take (k + 1) = us.take k ++ [u] := by
          rw [List.take_add_one, huk]; rfl
        obtain ⟨hc, hul, -⟩ := hu.complete
        have hiu : i = u ∧ serverPhase (T ++ [i]) = .command := by
          rw [serverPhase_snoc, h3]
          cases i with
          | received w e =>
            obtain ⟨-, -, -, htk, -⟩ := hgd
            rw [hph] at htk
            have he : w = u.taken := htk.complete.unique hc hX (List.prefix_append ..)
            obtain ⟨c, hm, rfl⟩ := htk
            rcases hu with ⟨w', c', rfl, hreg, hm', -⟩ | ⟨w', rs, rfl, hdis⟩
            · have he : w = w' := he
              subst he
              have := hm.det hm'
              subst this
              rw [Command.event_regular hreg]
              exact ⟨rfl, rfl⟩
            · have he : w = w' := he
              subst he
              obtain ⟨-, _, _, _, hx, -⟩ := hdis
              exact absurd hx hm.not_undecodable
          | failed e rs =>
            obtain ⟨-, -, hdis, -⟩ := hgd
            rw [hph] at hdis
            have hxx : ∀ w', e ≠ .commandTooLong w' := by
              rintro w' rfl
              obtain ⟨h4, -, h5⟩ := hdis.tooLong
              have hpw : u.taken <+: w' := prefix_of_le (List.prefix_append ..) hX (by
                show u.taken.length ≤ w'.length; omega)
              exact hc.not_unfinished hpw h5
            have he : e.bytes = u.taken := (hdis.complete hxx).unique hc hX (List.prefix_append ..)
            rcases hu with ⟨w', c', rfl, hreg, hm', -⟩ | ⟨w', rs', rfl, hdis'⟩
            · have he : e.bytes = w' := he
              subst he
              exfalso
              cases e with
              | commandTooLong w => exact hxx w rfl
              | literalTooLong w =>
                obtain ⟨-, _, _, _, hx, -⟩ := hdis
                exact hm'.not_undecodable hx
              | malformedMessage w =>
                obtain ⟨-, -, _, hx, -⟩ := hdis
                exact hm'.not_undecodable hx
              | expectedCrlfGotLf w => exact hdis.2.1.not_message hm'
            · have he : e.bytes = w' := he
              subst he
              obtain ⟨-, tag, n, mode, hx, hn, hrs⟩ := hdis'
              cases e with
              | commandTooLong w => exact absurd rfl (hxx w)
              | literalTooLong w =>
                obtain ⟨-, tag', n', mode', hx', hn', hrs'⟩ := hdis
                obtain ⟨_, _, -, -, -, -, hy, -⟩ := hx
                obtain ⟨_, _, -, -, -, -, hy', -⟩ := hx'
                have hy : L.decodeCommand w = _ := hy
                have hy' : L.decodeCommand w = _ := hy'
                rw [hy] at hy'
                cases hy'
                rw [hrs, hrs']
                exact ⟨rfl, rfl⟩
              | malformedMessage w =>
                obtain ⟨-, -, x, hx', hnl⟩ := hdis
                obtain ⟨_, _, -, -, -, -, hy, -⟩ := hx
                obtain ⟨_, _, -, -, -, -, hy', -⟩ := hx'
                have hy : L.decodeCommand w = _ := hy
                have hy' : L.decodeCommand w = _ := hy'
                rw [hy] at hy'
                cases hy'
                exact absurd rfl (hnl tag n mode)
              | expectedCrlfGotLf w => exact absurd hx hdis.2.1.not_undecodable
          | _ => cases hr
        obtain ⟨rfl, hphase⟩ := hiu
        refine ⟨k + 1, hkl, ?_, hphase⟩
        rw [List.filter_append, h2, htake]
        simp [hr]

/-- A starved server has read everything that arrived completely. -/
theorem Server.starved_reads {g : HandleGenerator} {o : ServerOptions} {gr : Greeting} {ops : List ServerOp}
    {s : Server} {T1 T2 : List SItem} {us : List SItem} {rest : Bytes}
    (h : (Server.new g o gr).trace L ops = .ok (s, T1 ++ .starved :: T2))
    (hus : ∀ u ∈ us, PlainRead L o u) (hg : serverGiven T1 = us.flatMap SItem.taken ++ rest)
    {k : Nat} (hk : T1.filter SItem.reads = us.take k) (hp : serverPhase T1 = .command) : us.length ≤ k := by
  obtain ⟨s1, hinv⟩ := Server.prefix_inv h
  obtain ⟨-, hst, -⟩ := Server.trace_guard h
  rw [ServerView.of_phase, ServerView.of_unread, hp] at hst
  rw [Server.given_eq hinv, flatMap_take_drop _ us k, serverTaken_filter, hk, List.append_assoc,
    List.append_cancel_left_eq] at hg
  rcases Nat.lt_or_ge k us.length with hlt | hge
  · exfalso
    have hd : us.drop k = us[k] :: us.drop (k + 1) := List.drop_eq_getElem_cons hlt
    have hx : us[k].taken <+: serverUnread T1 := by
      rw [hg, hd, List.flatMap_cons, List.append_assoc]
      exact List.prefix_append ..
    exact (hus us[k] (List.getElem_mem hlt)).complete.1.not_unfinished hx hst.1
  · exact hge

end ImapFlow
