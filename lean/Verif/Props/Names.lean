import Verif.Spec.Names
import Verif.Props.Classify
import Verif.Props.Signed

/-!
# Registered names

C40: which names of RFC 7517, RFC 7518 and DIDComm are read.
-/

namespace Verif

open Spec

/-- C40.  The names that are read: of the `alg` values of RFC 7518 all but `PS256` and `A192KW`, and three
more; the key operations of RFC 7517 and `other`; the types of DIDComm. -/
theorem C40_names :
    (∀ s, (∃ a, KeyAlgorithm.ofLabel s = some a) ↔
      (s ∈ rfc7518Signing ∧ s ≠ c!"PS256") ∨ (s ∈ rfc7518Keys ∧ s ≠ c!"A192KW") ∨ s ∈ otherAlgs) ∧
    (∀ s, (∃ a, KeyOps.ofLabel s = some a) ↔ s ∈ rfc7517Ops ∨ s = c!"other") ∧
    ∀ s, (∃ t, MessageType.ofLabel s = some t) ↔ s ∈ didcommTypes := by
  refine ⟨fun s => ⟨?_, ?_⟩, fun s => ⟨?_, ?_⟩, fun s => ⟨?_, ?_⟩⟩
  · rintro ⟨a, h⟩
    rw [C40_labels.2.2] at h
    subst h
    cases a <;> decide
  · have : ∀ s ∈ rfc7518Signing ++ rfc7518Keys ++ otherAlgs, s ≠ c!"PS256" → s ≠ c!"A192KW" →
        (KeyAlgorithm.ofLabel s).isSome = true := by decide
    intro h
    apply Option.isSome_iff_exists.1
    rcases h with ⟨h, h'⟩ | ⟨h, h'⟩ | h
    · exact this s (by simp [h]) h' (by rintro rfl; revert h; decide)
    · exact this s (by simp [h]) (by rintro rfl; revert h; decide) h'
    · exact this s (by simp [h]) (by rintro rfl; revert h; decide) (by rintro rfl; revert h; decide)
  · rintro ⟨a, h⟩
    rw [C40_labels.2.1] at h
    subst h
    cases a <;> decide
  · have : ∀ s ∈ c!"other" :: rfc7517Ops, (KeyOps.ofLabel s).isSome = true := by decide
    intro h
    apply Option.isSome_iff_exists.1
    rcases h with h | rfl
    · exact this s (List.mem_cons_of_mem _ h)
    · exact this _ (List.mem_cons_self ..)
  · rintro ⟨a, h⟩
    rw [C40_labels.1] at h
    subst h
    cases a <;> decide
  · have : ∀ s ∈ didcommTypes, (MessageType.ofLabel s).isSome = true := by decide
    intro h
    exact Option.isSome_iff_exists.1 (this s h)

/-- C40.  The codes of the reports made from known problems: twenty-two names and one code, all in quotation
marks. -/
theorem C40_problem_codes (s : Str) :
    (∃ k, (Problem.fromKnown k).code = s) ↔
      ∃ n ∈ problemErrors ++ problemWarnings ++ [c!"e.u.no-data"], s = '"' :: (n ++ c!"\"") := by
  constructor
  · rintro ⟨k, rfl⟩
    refine ⟨k.label, ?_, ?_⟩
    · cases k <;> decide
    · cases k <;> decide +kernel
  · rintro ⟨n, hn, rfl⟩
    have h : ∀ n ∈ problemErrors ++ problemWarnings ++ [c!"e.u.no-data"],
        ([KnownProblem.protocolError, .trustlError, .cryptoTrusError, .xferError, .didError, .msgError, .meErro,
          .meResError, .reqError, .reqTimeError, .legalError, .protocolWarning, .trustWarning, .cryptoTrustWarning,
          .xferWarning, .didWarning, .msgWarning, .meWarning, .meResWarning, .reqWarning, .reqTimeWarning,
          .legalWarning, .unknown].find? fun k => decide ((Problem.fromKnown k).code = '"' :: (n ++ c!"\""))).isSome
          = true := by
      decide +kernel
    obtain ⟨k, hk⟩ := Option.isSome_iff_exists.1 (h n hn)
    exact ⟨k, of_decide_eq_true (List.find?_some (p := fun k => decide ((Problem.fromKnown k).code = '"' :: (n ++ c!"\""))) hk)⟩

example : (KeyAlgorithm.ofLabel c!"PS256", KeyAlgorithm.ofLabel c!"A192KW",
    KeyAlgorithm.ofLabel c!"ECDH-1PU+XC20PKW") = (none, none, some .ecdh1puXc20pkw) := by decide

end Verif
