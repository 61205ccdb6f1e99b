import Verif.Proofs.ProxyFilter
import Verif.Spec.ProxySamples

/-!
# C38: the filtering of capabilities is sound, order-preserving, non-empty and idempotent

`Capability.Supported` (`Spec/Proxy.lean`) is the allow-list.
-/

namespace ImapFlow

/-- If something is supported, exactly the supported capabilities are kept, in order. -/
theorem C38_keeps_supported (cs : Vec1 Capability) (h : ∃ c ∈ cs.toList, c.Supported) :
    (filterCapabilities cs).toList = cs.toList.filter fun c => decide c.Supported := by
  rw [filterCapabilities_eq]
  unfold restrict
  split
  · rename_i hn
    obtain ⟨c, hc, hs⟩ := h
    have := (List.filter_eq_nil_iff.mp hn) c hc
    simp [hs] at this
  · rename_i hn
    exact hn.symm

/-- If nothing is supported, IMAP4rev1 is left. -/
theorem C38_default (cs : Vec1 Capability) (h : ∀ c ∈ cs.toList, ¬ c.Supported) :
    (filterCapabilities cs).toList = [.imap4Rev1] := by
  rw [filterCapabilities_eq]
  unfold restrict
  rw [List.filter_eq_nil_iff.mpr (by simpa using h)]
  rfl

/-- Only supported capabilities are left, and there is one. -/
theorem C38_sound (cs : Vec1 Capability) :
    (∀ c ∈ (filterCapabilities cs).toList, c.Supported) ∧ (filterCapabilities cs).toList ≠ [] := by
  refine ⟨?_, nofun⟩
  intro c hc
  by_cases h : ∃ c ∈ cs.toList, c.Supported
  · rw [C38_keeps_supported cs h] at hc
    simpa using (List.mem_filter.mp hc).2
  · rw [C38_default cs fun c hc hs => h ⟨c, hc, hs⟩, List.mem_singleton] at hc
    rw [hc]
    exact .inl (by simp)

/-- Mechanisms with channel binding, unknown mechanisms, STARTTLS, LOGINDISABLED and unknown capabilities are
never left. -/
theorem C38_excluded (cs : Vec1 Capability) :
    .auth .scramSha1Plus ∉ (filterCapabilities cs).toList ∧ .auth .scramSha256Plus ∉ (filterCapabilities cs).toList ∧
    (∀ name, .auth (.other name) ∉ (filterCapabilities cs).toList) ∧ .startTls ∉ (filterCapabilities cs).toList ∧
    .loginDisabled ∉ (filterCapabilities cs).toList ∧ ∀ name, .other name ∉ (filterCapabilities cs).toList := by
  have h := (C38_sound cs).1
  refine ⟨fun hc => ?_, fun hc => ?_, fun name hc => ?_, fun hc => ?_, fun hc => ?_, fun name hc => ?_⟩ <;>
    simpa [Capability.Supported, supportedMechanisms] using h _ hc

/-- Filtering again changes nothing. -/
theorem C38_idempotent (cs : Vec1 Capability) : filterCapabilities (filterCapabilities cs) = filterCapabilities cs := by
  have h := C38_keeps_supported (filterCapabilities cs) ⟨_, List.mem_cons_self, (C38_sound cs).1 _ List.mem_cons_self⟩
  rw [List.filter_eq_self.mpr (by simpa using (C38_sound cs).1)] at h
  revert h
  generalize filterCapabilities (filterCapabilities cs) = a
  generalize filterCapabilities cs = b
  rcases a with ⟨a, as⟩
  rcases b with ⟨b, bs⟩
  simp [Vec1.toList]

/-- A list with supported and unsupported capabilities. -/
example : (filterCapabilities ⟨.startTls, [.auth .scramSha1Plus, .idle, .other [88], .auth .plain, .imap4Rev1]⟩).toList =
    [.idle, .auth .plain, .imap4Rev1] :=
  C38_keeps_supported _ ⟨.idle, by simp [Vec1.toList], .inl (by simp)⟩

/-- A list without supported capabilities. -/
example : (filterCapabilities ⟨.startTls, [.auth .scramSha1Plus]⟩).toList = [.imap4Rev1] :=
  C38_default _ (by decide)

end ImapFlow
