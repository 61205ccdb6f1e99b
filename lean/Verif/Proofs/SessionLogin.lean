import Verif.Proofs.SessionPairs
import Verif.Proofs.DialogueOrder

/-!
# `client.rs` and `server.rs`
-/

namespace ImapFlow

variable {K : Type} {L : Lib} {gc gs : HandleGenerator} {os : ServerOptions} {login : Bytes}

/-- The greeting of `server.rs`. -/
abbrev loginGreeting : Greeting := { kind := .ok, code := none, text := Examples.serverText }

/-- What is known of `server.rs`. -/
abbrev LoginServer (L : Lib) (w : Examples.NoVars) (B : List SItem) : Prop :=
  Examples.NoInv loginGreeting w B ∧ Shapely (Words L [noBody] [] []) B

theorem LoginInv.speaks {v : Examples.LoginVars} {A : List CItem} (h : Examples.LoginInv login v A) :
    Speaks [Examples.loginCommand login] [] A := by
  obtain ⟨h1, h2⟩ := h
  refine ⟨?_, by rw [h1]; nofun⟩
  have e : (clientGist A).enqueued = clientEnqueued A := (ClientView.of_fields A).2.2.1
  rw [← e]
  cases v with
  | greeting => exact .inl h2.2.1
  | running hd => exact .inr ⟨(hd, Examples.loginCommand login), h2.2.1, List.mem_singleton.2 rfl⟩

theorem login_fitting (hL : L.Lawful) (hE : L.Exemplary) (ho : ServerOptions.default L = .ok os)
    (hc : Conversant L os Examples.serverText [Examples.loginCommand login] [] (ascii "A1") [noBody] [] []) :
    Fitting L gc gs os loginGreeting (Examples.client login) (Examples.server L) (Examples.LoginInv login) (fun _ => False)
      (LoginServer L) (Saying [Examples.loginCommand login]) :=
  hc.fitting hL ho (Examples.client_kept hL gc login) (Examples.server_kept hE) Examples.server_shaped
    (fun c h => by rw [List.mem_singleton.1 h]; rfl) LoginInv.speaks (fun h => h.elim) fun h => h.1

/-- What `server.rs` says besides answers to AUTHENTICATE and IDLE are the statuses that it enqueues. -/
def ServerOp.told? : ServerOp → Option Response
  | .enqueueStatus st => some (.status st)
  | .enqueueData d => some (.data d)
  | _ => none

theorem SItem.told_op (S : List SItem) : S.filterMap SItem.told? = (S.filterMap SItem.op?).filterMap ServerOp.told? := by
  rw [List.filterMap_filterMap]
  refine filterMap_congr' fun i _ => ?_
  cases i with
  | enqueue h r => cases r <;> rfl
  | _ => rfl

theorem heard_regular {gr : Greeting} {ops : List ServerOp} {s : Server} {S : List SItem}
    (hS : (Server.new gs os gr).trace L ops = .ok (s, S)) :
    S.filterMap Examples.commandOf = (serverHeard S).filterMap ServerEvent.regular? := by
  rw [← Server.heard_events hS, List.filterMap_filterMap, List.filterMap_filterMap]
  refine filterMap_congr' fun i _ => ?_
  unfold Examples.commandOf
  cases h : i.event? with
  | none => rfl
  | some e => cases e <;> rfl

section
variable {s : Session K Examples.LoginVars Examples.NoVars} {R : List SessionItem} {v : Examples.LoginVars} {c : FullStream K Client}
  {w : Examples.NoVars} {d : FullStream K Server} {G : List StreamNetItem} {n : Net} {T : List NItem} {as : List SessionAct}

theorem login_live (hL : L.Lawful) (hE : L.Exemplary) (ho : ServerOptions.default L = .ok os)
    (hc : Conversant L os Examples.serverText [Examples.loginCommand login] [] (ascii "A1") [noBody] [] [])
    (h : SessionRuns L gc gs Examples.serverText (Examples.client login) (Examples.server L) as s R) :
    ∃ v c w d G n T, Live L gc gs os loginGreeting (Examples.LoginInv login) (LoginServer L) s R v c w d G n T := by
  rcases (login_fitting hL hE ho hc).session hE ho (by simp) h with h | ⟨_, _, _, _, _, _, h⟩
  · exact h
  · exact h.inv.elim

/-- Neither program makes many calls. -/
theorem login_calls (hL : L.Lawful) (hE : L.Exemplary) (ho : ServerOptions.default L = .ok os)
    (hc : Conversant L os Examples.serverText [Examples.loginCommand login] [] (ascii "A1") [noBody] [] [])
    (h : Live L gc gs os loginGreeting (Examples.LoginInv login) (LoginServer L) s R v c w d G n T) :
    (programCalls (sessionClient R)).length + (programCalls (sessionServer R)).length ≤ 3 := by
  have hf := login_fitting (gc := gc) (gs := gs) hL hE ho hc
  have hob := h.link.observed hf.lawful hf.built
  obtain ⟨D, fl, ht⟩ := h.together hf
  obtain ⟨sops, hst⟩ := (Net.run_linked h.link.net).server
  have h1 : ((clientItems T).filterMap CItem.op?).length ≤ 1 := by
    obtain ⟨-, h2⟩ := h.inv
    cases v with
    | greeting => rw [h2.2.2]; simp
    | running hd => rw [h2.2.2]; simp
  have h2 : ((serverItems T).filterMap SItem.op?).length ≤ 2 := by
    rw [h.inv'.1.2.1, List.length_map, heard_regular hst]
    have h3 : (serverHeard (serverItems T)).length ≤ 2 := by
      have := ClientView.said_length (clientItems T)
      rw [ht.core.said, List.length_append] at this
      have hs := LoginInv.speaks h.inv
      have h4 : (clientEnqueued (clientItems T)).length ≤ 1 := by
        rcases hs.command with h | ⟨x, h, -⟩ <;> rw [h] <;> simp
      have h5 : (clientItems T).filterMap CItem.data? = [] := h.inv.1
      rw [h5] at this
      simp only [List.length_nil] at this
      omega
    exact Nat.le_trans (List.length_filterMap_le _ _) h3
  rw [hob.clientCalls, hob.serverCalls]
  omega

/-- What happened when both programs wait. -/
theorem login_rest (hL : L.Lawful) (hE : L.Exemplary) (ho : ServerOptions.default L = .ok os)
    (hc : Conversant L os Examples.serverText [Examples.loginCommand login] [] (ascii "A1") [noBody] [] [])
    (h : Live L gc gs os loginGreeting (Examples.LoginInv login) (LoginServer L) s R v c w d G n T) (hw : s.Waits) :
    programCalls (sessionClient R) = [.enqueueCommand (Examples.loginCommand login)] ∧
    (programEvents (sessionServer R)).filterMap ServerEvent.heard? = [.commandReceived (Examples.loginCommand login)] ∧
    programCalls (sessionServer R) = [.enqueueStatus (.tagged (ascii "A1") noBody)] ∧
    (programEvents (sessionClient R)).filterMap ClientEvent.told? = [.status (.tagged (ascii "A1") noBody)] ∧
    ∃ hd, (programEvents (sessionClient R)).filter ClientEvent.isTerminal = [.commandSent hd (Examples.loginCommand login)] ∧
      ∃ E1 E2, programEvents (sessionClient R) = E1 ++ .statusReceived (.tagged (ascii "A1") noBody) :: E2 ∧
        .commandSent hd (Examples.loginCommand login) ∈ E1 := by
  have hf := login_fitting (gc := gc) (gs := gs) hL hE ho hc
  have hob := h.link.observed hf.lawful hf.built
  obtain ⟨D, fl, ht⟩ := h.together hf
  have hl := Net.run_linked h.link.net
  obtain ⟨cops, hct⟩ := hl.client
  obtain ⟨sops, hst⟩ := hl.server
  obtain ⟨⟨A, hA⟩, ⟨B, hB⟩, h1, h2, hrt, hheard, -, hturn⟩ := h.waits hf hw
  have hgr := h.greeted hf hw
  obtain ⟨f1, -, f3, f4, -⟩ := ClientView.of_fields (clientItems T)
  have hinv := h.inv
  cases v with
  | greeting =>
    have : (ClientView.of (clientItems T)).greeted = false := hinv.2.1
    rw [hgr] at this
    cases this
  | running hd =>
    obtain ⟨hdata, -, hen, hops⟩ := hinv
    have hen : (ClientView.of (clientItems T)).enqueued = [(hd, Examples.loginCommand login)] := hen
    have hcur : ∀ x, (ClientView.of (clientItems T)).current = some x → x = (hd, Examples.loginCommand login) := by
      intro x hx
      obtain ⟨q, hq⟩ := ClientView.remaining_of_current hx
      have : x ∈ (ClientView.of (clientItems T)).enqueued := List.mem_of_mem_drop (by
        show x ∈ (ClientView.of (clientItems T)).remaining; rw [hq]; simp)
      rw [hen] at this
      exact List.mem_singleton.1 this
    have hidle : (ClientView.of (clientItems T)).current = none ∧ (ClientView.of (clientItems T)).remaining = [] := by
      cases hturn with
      | idle a b => exact ⟨a, b⟩
      | authenticateServer h' c' a b => cases hcur _ a; cases b
      | authenticateClient h' c' a b => cases hcur _ a; cases b
      | idleServer h' c' a b => cases hcur _ a; cases b
      | idleClient h' c' a b => cases hcur _ a; cases b
    obtain ⟨hc0, hr0⟩ := hidle
    have hlen : (clientTerminals (clientItems T)).length = 1 := by
      have h3 := C13_at_most_once hL hct
      rw [← f3, hen] at h3
      have h4 : 1 ≤ (ClientView.of (clientItems T)).ended.length := by
        have := congrArg List.length hr0
        rw [ClientView.remaining, hen] at this
        simp at this
        omega
      rw [← f4, List.length_map] at h3 ⊢
      simp at h3
      omega
    obtain ⟨e, he⟩ := List.length_eq_one_iff.1 hlen
    have hrep : e = .commandSent hd (Examples.loginCommand login) := by
      obtain ⟨hd', cmd, h6, h7⟩ := C13_terminal_events hL hct (n := 0) (e := e) (by rw [he]; rfl)
      rw [← f3, hen] at h6
      cases h6
      rcases h7 with h7 | ⟨st, rfl⟩ | ⟨ca, st, h8, -⟩ | ⟨h8, -⟩
      · exact h7
      · exfalso
        have hm : ClientEvent.commandRejected hd (Examples.loginCommand login) st ∈ clientTerminals (clientItems T) := by rw [he]; simp
        obtain ⟨i, hi, hie⟩ := List.mem_filterMap.1 hm
        obtain ⟨hie, -⟩ := Option.filter_eq_some_iff.1 hie
        have hex := ht.expected i hi
        obtain ⟨a, b, hab⟩ := List.append_of_mem hi
        rw [hab] at hct
        have hv := Client.trace_guard hL hct
        cases i with
        | received w e' => cases hie; exact hex
        | sent e' => cases hie; obtain ⟨-, hd, cmd, q, -, ⟨h, -⟩ | ⟨h, -⟩ | ⟨h, -⟩ | ⟨h, -⟩⟩ := hv <;> cases h
        | _ => cases hie
      · have := congrArg Command.body h8
        cases this
      · have := congrArg Command.body h8
        cases this
    subst hrep
    have hsaid : (ClientView.of (clientItems T)).said = [.commandReceived (Examples.loginCommand login)] := by
      have hd0 := ClientView.of_datas (clientItems T)
      rw [hdata] at hd0
      rw [he] at f4
      obtain ⟨hd1, -⟩ := List.append_eq_nil_iff.1 hd0
      unfold ClientView.said
      rw [hc0, hen]
      cases hed : (ClientView.of (clientItems T)).ended with
      | nil => rw [hed] at f4; cases f4
      | cons en rest =>
        rw [hed] at f4 hd1
        simp only [List.map_cons, List.cons.injEq, List.map_eq_nil_iff] at f4
        obtain ⟨g1, rfl⟩ := f4
        simp only [List.flatMap_cons, List.append_eq_nil_iff] at hd1
        simp only [List.zip_cons_cons, List.zip_nil_right, List.flatMap_cons, List.flatMap_nil, saidEnded, g1, hd1.1]
        rfl
    rw [hsaid] at hheard
    have hcalls : (serverItems T).filterMap SItem.op? = [.enqueueStatus (.tagged (ascii "A1") noBody)] := by
      rw [h.inv'.1.2.1, heard_regular hst, hheard]
      rfl
    have htold : (clientItems T).filterMap CItem.told? = [.status (.tagged (ascii "A1") noBody)] := by
      rw [hl.told_starved hL hf.built hrt hf.size (hf.fair h.inv) (hf.orderly h.inv') hA hB h1 h2, SItem.told_op, hcalls]
      rfl
    refine ⟨by rw [hob.clientCalls, hops], by rw [hob.heard, hheard], by rw [hob.serverCalls, hcalls],
      by rw [hob.told, htold], hd, by rw [hob.terminals, he], ?_⟩
    have hm : Response.status (.tagged (ascii "A1") noBody) ∈ (programEvents (sessionClient R)).filterMap ClientEvent.told? := by
      rw [hob.told, htold]; simp
    obtain ⟨x, hx, hxt⟩ := List.mem_filterMap.1 hm
    have : x = .statusReceived (.tagged (ascii "A1") noBody) := by
      cases x <;> first | (cases hxt; rfl) | cases hxt
    subst this
    obtain ⟨E1, E2, hE12⟩ := List.append_of_mem hx
    refine ⟨E1, E2, hE12, ?_⟩
    obtain ⟨hd', cmd, k1, k2, e, k3, k4, k5⟩ := hl.status_reports hL hf.built hrt hf.size (hf.fair h.inv) (hf.orderly h.inv')
      (hob.clientEvents.symm.trans hE12)
    have : e ∈ (programEvents (sessionClient R)).filter ClientEvent.isTerminal :=
      List.mem_filter.2 ⟨by rw [hE12]; exact List.mem_append_left _ k3, k4⟩
    rw [hob.terminals, he] at this
    rw [← List.mem_singleton.1 this]
    exact k3

end

/-- A program without input from its user does not take lines. -/
theorem Session.no_lines {σ τ : Type} {P : Program σ Client ClientEvent ClientOp} {P' : Program τ Server ServerEvent ServerOp}
    (h1 : ∀ v c text, P.line v c text = none) (h2 : ∀ v c text, P'.line v c text = none) {s s' : Session K σ τ} {a : SessionAct}
    {R : List SessionItem} (h : s.step L P P' a = some (s', R)) : ∀ text, a ≠ .clientLine text ∧ a ≠ .serverLine text := by
  have key : ∀ {σ S ε ev ι : Type} {P : Program σ S ev ι} {M : Machine S ε ev ι} (x : Running K σ S) (text : Bytes),
      (∀ v c text, P.line v c text = none) → P.step M x (.line text) = none := by
    intro σ S ε ev ι P M x text hx
    cases x with
    | running v c => simp only [Program.step, hx]
    | _ => rfl
  intro text
  constructor
  · rintro rfl
    simp only [Session.step, Session.clientDoes, key s.client text h1] at h
    cases h
  · rintro rfl
    simp only [Session.step, Session.serverDoes, key s.server text h2] at h
    cases h

end ImapFlow
