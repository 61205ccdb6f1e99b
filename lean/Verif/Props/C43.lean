import Verif.Proofs.ServerSafe
import Verif.Spec.ServerSamples

/-!
# C43: literal accept/reject texts are always valid
-/

namespace ImapFlow

/-- `set_literal_accept_text` never panics; if the text is valid it changes exactly this text, else it
changes nothing and returns the text. -/
theorem C43_set_accept (L : Lib) (o : ServerOptions) (text : Bytes) :
    (L.ccrBasicFromStr none text = some (.basic none text) ∧
      ∃ o', o.setLiteralAcceptText L text = .ok (o', .ok ()) ∧ o'.literalAcceptText = .ok text ∧
        o'.literalRejectCcr = o.literalRejectCcr ∧ o'.crlfRelaxed = o.crlfRelaxed ∧
        o'.maxLiteralSize = o.maxLiteralSize ∧ o'.maxCommandSize = o.maxCommandSize) ∨
    (L.ccrBasicFromStr none text = none ∧ o.setLiteralAcceptText L text = .ok (o, .error text)) := by
  cases h : L.ccrBasicFromStr none text with
  | none => exact .inr ⟨rfl, by simp [ServerOptions.setLiteralAcceptText, h]⟩
  | some c =>
    obtain ⟨rfl, -⟩ := L.ccrFromStr_some h
    exact .inl ⟨rfl, { o with literalAcceptCcr := .basic none text }, by simp [ServerOptions.setLiteralAcceptText, h],
      rfl, rfl, rfl, rfl, rfl⟩

/-- The same for `set_literal_reject_text`. -/
theorem C43_set_reject (L : Lib) (o : ServerOptions) (text : Bytes) :
    (L.ccrBasicFromStr none text = some (.basic none text) ∧
      ∃ o', o.setLiteralRejectText L text = .ok (o', .ok ()) ∧ o'.literalRejectText = .ok text ∧
        o'.literalAcceptCcr = o.literalAcceptCcr ∧ o'.crlfRelaxed = o.crlfRelaxed ∧
        o'.maxLiteralSize = o.maxLiteralSize ∧ o'.maxCommandSize = o.maxCommandSize) ∨
    (L.ccrBasicFromStr none text = none ∧ o.setLiteralRejectText L text = .ok (o, .error text)) := by
  cases h : L.ccrBasicFromStr none text with
  | none => exact .inr ⟨rfl, by simp [ServerOptions.setLiteralRejectText, h]⟩
  | some c =>
    obtain ⟨rfl, -⟩ := L.ccrFromStr_some h
    exact .inl ⟨rfl, { o with literalRejectCcr := .basic none text }, by simp [ServerOptions.setLiteralRejectText, h],
      rfl, rfl, rfl, rfl, rfl⟩

/-- In all options that can be built, both texts can be read, and the continuation request the server
builds from the accept text is the stored one. -/
theorem C43_texts_valid {L : Lib} {o : ServerOptions} (h : ServerOptions.Built L o) :
    (∃ text, o.literalAcceptText = .ok text ∧ o.literalAcceptCcr = .basic none text ∧
      L.ccrBasicFromText none text = some o.literalAcceptCcr) ∧
    (∃ text, o.literalRejectText = .ok text ∧ o.literalRejectCcr = .basic none text ∧
      L.ccrBasicFromText none text = some o.literalRejectCcr) := by
  obtain ⟨⟨t, h1, h2⟩, t', h3, h4⟩ := h.usable
  exact ⟨⟨t, by simp [ServerOptions.literalAcceptText, h1], h1, by simp [Lib.ccrBasicFromText, h1, h2]⟩,
    ⟨t', by simp [ServerOptions.literalRejectText, h3], h3, by simp [Lib.ccrBasicFromText, h3, h4]⟩⟩

/-- A setter that succeeds and one that fails (a text with a line break). -/
example : (ServerSample.options.setLiteralAcceptText Toy.lib (ClientSample.str "go")).toOption.map (·.2) = some (.ok ()) ∧
    (ServerSample.options.setLiteralAcceptText Toy.lib [10]) = .ok (ServerSample.options, .error [10]) := by
  decide +kernel

end ImapFlow
