import Verif.Spec.Proxy

/-!
# Filtering of capabilities
-/

namespace ImapFlow

theorem isCapabilityProxyable_iff (c : Capability) : isCapabilityProxyable c = true ↔ c.Supported := by
  cases c with
  | auth m => cases m <;> simp [isCapabilityProxyable, isAuthMechanismProxyable, Capability.Supported, supportedMechanisms]
  | _ => simp [isCapabilityProxyable, Capability.Supported]

theorem isCapabilityProxyable_eq (c : Capability) : isCapabilityProxyable c = decide c.Supported := by
  rw [Bool.eq_iff_iff, isCapabilityProxyable_iff, decide_eq_true_iff]

theorem filterCapabilities_eq (cs : Vec1 Capability) : filterCapabilities cs = restrict cs := by
  unfold filterCapabilities restrict
  rw [show isCapabilityProxyable = (fun c => decide c.Supported) from funext isCapabilityProxyable_eq]
  cases cs.toList.filter (fun c => decide c.Supported) <;> rfl

theorem filterCapabilitiesInCode_eq (code : Option Code) : filterCapabilitiesInCode code = code.map Code.restrict := by
  cases code with
  | none => rfl
  | some code => cases code <;> simp [filterCapabilitiesInCode, Code.restrict, filterCapabilities_eq]

theorem filterCapabilitiesInGreeting_eq (g : Greeting) : filterCapabilitiesInGreeting g = g.restrict := by
  unfold filterCapabilitiesInGreeting Greeting.restrict
  rw [filterCapabilitiesInCode_eq]

theorem filterCapabilitiesInData_eq (d : Data) : Response.data (filterCapabilitiesInData d) = (Response.data d).restrict := by
  cases d <;> simp [filterCapabilitiesInData, Response.restrict, filterCapabilities_eq]

theorem filterCapabilitiesInStatus_eq (st : Status) : filterCapabilitiesInStatus st = st.restrict := by
  cases st <;> simp [filterCapabilitiesInStatus, Status.restrict, filterCapabilitiesInCode_eq]

/-- A received continuation request can be filtered without a panic. -/
theorem filterCapabilitiesInContinuation_eq {L : Lib} (hP : L.Proxyable) {i rem : Bytes} {r : ContinuationRequest}
    (h : L.decodeResponse i = .ok (rem, .continuationRequest r)) :
    ∃ r', filterCapabilitiesInContinuation L r = .ok r' ∧
      Response.continuationRequest r' = (Response.continuationRequest r).restrict := by
  cases r with
  | base64 d => exact ⟨_, rfl, rfl⟩
  | basic code text =>
    cases code with
    | none => exact ⟨_, rfl, rfl⟩
    | some code =>
      cases code with
      | capability cs =>
        refine ⟨.basic (some (.capability (restrict cs))) text, ?_, rfl⟩
        simp only [filterCapabilitiesInContinuation, Lib.ccrBasicFromText, Option.isSome_some,
          hP.continuation _ _ _ _ h, if_true, filterCapabilities_eq]
      | _ => exact ⟨_, rfl, rfl⟩

theorem modifiedStatus_eq {L : Lib} (hP : L.Proxyable) (c : Command) (st : Status) :
    modifiedStatus L c st = .ok (rejection c.tag st) := by
  have key : ∀ (code : Option Code) (text : Text),
      (match code with
        | some .alert => (.ok (.tagged c.tag { kind := .bad, code := some .alert, text }) : Except Panic Status)
        | _ => if L.textValid commandRejectedText then
            .ok (.tagged c.tag { kind := .bad, code := none, text := commandRejectedText })
          else .error .unwrapFailed) =
      .ok (if code = some .alert then .tagged c.tag { kind := .bad, code := some .alert, text }
        else .tagged c.tag { kind := .bad, code := none, text := commandRejectedText }) := by
    intro code text
    split
    · rfl
    · rename_i h
      rw [if_pos hP.rejected, if_neg h]
  cases st <;> exact key _ _

end ImapFlow
