import Verif.Model.Types

/-!
# Proxy: filtering of capabilities (`/repo/proxy/src/util.rs`)

The functions change their argument in place if the filtered list differs from the given one; setting an
equal list is the same as not setting it.  The warnings are not modelled.
-/

namespace ImapFlow

/-- `is_auth_mechanism_proxyable`, `/repo/proxy/src/util.rs:120-131`. -/
def isAuthMechanismProxyable : AuthMechanism → Bool
  | .plain | .login | .xOAuth2 => true
  | .scramSha1 | .scramSha256 => true
  | .scramSha1Plus | .scramSha256Plus => false
  | _ => false

/-- The closure in `filter_capabilities`, `/repo/proxy/src/util.rs:103-114`. -/
def isCapabilityProxyable : Capability → Bool
  | .imap4Rev1 => true
  | .auth mechanism => isAuthMechanismProxyable mechanism
  | .saslIr => true
  | .quota | .quotaRes _ | .quotaSet => true
  | .move => true
  | .literalPlus | .literalMinus => true
  | .unselect => true
  | .id => true
  | .idle => true
  | _ => false

/-- `filter_capabilities`, `/repo/proxy/src/util.rs:100-118`. -/
def filterCapabilities (capabilities : Vec1 Capability) : Vec1 Capability :=
  (Vec1.tryFrom (capabilities.toList.filter isCapabilityProxyable)).getD ⟨.imap4Rev1, []⟩

/-- The part shared by `filter_capabilities_in_greeting` and `filter_capabilities_in_status`. -/
def filterCapabilitiesInCode : Option Code → Option Code
  | some (.capability capabilities) => some (.capability (filterCapabilities capabilities))
  | code => code

/-- `filter_capabilities_in_greeting`, `/repo/proxy/src/util.rs:21-34`. -/
def filterCapabilitiesInGreeting (greeting : Greeting) : Greeting :=
  { greeting with code := filterCapabilitiesInCode greeting.code }

/-- `filter_capabilities_in_data`, `/repo/proxy/src/util.rs:37-50`. -/
def filterCapabilitiesInData : Data → Data
  | .capability capabilities => .capability (filterCapabilities capabilities)
  | data => data

/-- `filter_capabilities_in_status`, `/repo/proxy/src/util.rs:53-82`. -/
def filterCapabilitiesInStatus : Status → Status
  | .tagged tag body => .tagged tag { body with code := filterCapabilitiesInCode body.code }
  | .untagged body => .untagged { body with code := filterCapabilitiesInCode body.code }
  | .bye code text => .bye (filterCapabilitiesInCode code) text

/-- `filter_capabilities_in_continuation`, `/repo/proxy/src/util.rs:85-97`. -/
def filterCapabilitiesInContinuation (L : Lib) : ContinuationRequest → Except Panic ContinuationRequest
  | .basic (some (.capability capabilities)) text =>
    match L.ccrBasicFromText (some (.capability (filterCapabilities capabilities))) text with
    | none => .error .unwrapFailed
    | some request => .ok request
  | request => .ok request

end ImapFlow
