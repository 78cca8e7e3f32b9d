import Verif.Lemma.Base64Spec
import Verif.Lemma.Hex
import Verif.Lemma.Json
import Verif.Spec.Hex

/-!
# Properties of the codecs

C01, C02 (base64url), C03 (JSON text), C54 (hexadecimal key ids).
-/

namespace Verif

open Spec

/-- C01.  For every byte string the written text is its base64url form in the sense of RFC 4648, it
is the only such text, and the decoder gives the bytes back. -/
theorem C01_base64_roundtrip (bs : Bytes) :
    (∀ text, text = b64Encode bs ↔ IsBase64Url bs text) ∧ b64Decode (b64Encode bs) = some bs := by
  refine ⟨fun text => ⟨?_, fun h => isBase64Url_unique h (isBase64Url_encode bs)⟩,
    b64Decode_encode bs⟩
  rintro rfl
  exact isBase64Url_encode bs

example : b64Encode [0xfb, 0xff, 0x00, 0x10] = c!"-_8AEA" := by decide

/-- C02.  Whatever the decoder accepts is the base64url form of the result followed by at most two
`=` signs. -/
theorem C02_base64_decode_canonical {s : Str} {bs : Bytes} (h : b64Decode s = some bs) :
    ∃ text p, p ≤ 2 ∧ IsBase64Url bs text ∧ s = text ++ List.replicate p '=' := by
  obtain ⟨p, hs, hp⟩ := b64Decode_sound h
  refine ⟨_, p, ?_, isBase64Url_encode bs, hs⟩
  unfold b64PadOk at hp
  split at hp
  · simpa using hp
  · split at hp
    · simp only [decide_eq_true_eq] at hp; omega
    · simp only [decide_eq_true_eq] at hp; omega

/-- C02.  Which texts are accepted: the base64url form of the result, without padding or with at most so much as makes
the length a multiple of four. -/
theorem C02_base64_decode_exact (s : Str) (bs : Bytes) : b64Decode s = some bs ↔
    ∃ text p, IsBase64Url bs text ∧ s = text ++ List.replicate p '=' ∧ (p = 0 ∨ ∃ q, p ≤ q ∧ q < 4 ∧ 4 ∣ text.length + q) := by
  have hmod : (b64Encode bs).length % 4 ≠ 1 := by
    rw [b64Encode_length]
    omega
  have hok : ∀ p, b64PadOk (b64Encode bs).length p = true ↔
      (p = 0 ∨ ∃ q, p ≤ q ∧ q < 4 ∧ 4 ∣ (b64Encode bs).length + q) := by
    intro p
    unfold b64PadOk
    constructor
    · intro h
      split at h
      · exact .inr ⟨2, by simpa using h, by omega, by omega⟩
      · split at h
        · exact .inr ⟨1, by simpa using h, by omega, by omega⟩
        · exact .inl (by simpa using h)
    · rintro (rfl | ⟨q, h1, h2, h3⟩)
      · exact b64PadOk_zero _
      · split
        · simp only [decide_eq_true_eq]; omega
        · split <;> simp only [decide_eq_true_eq] <;> omega
  constructor
  · intro h
    obtain ⟨p, hs, hp⟩ := b64Decode_sound h
    exact ⟨_, p, isBase64Url_encode bs, hs, (hok p).1 hp⟩
  · rintro ⟨text, p, ht, rfl, hp⟩
    obtain rfl := isBase64Url_unique ht (isBase64Url_encode bs)
    have h : ∀ x ∈ b64Encode bs, (decide (x ≠ '=')) = true := by
      intro x hx; simpa using b64Encode_noPad bs x hx
    have h1 : (b64Encode bs ++ List.replicate p '=').takeWhile (· ≠ '=') = b64Encode bs := by
      rw [List.takeWhile_append_of_pos h]
      cases p <;> simp [List.replicate_succ]
    have h2 : (b64Encode bs ++ List.replicate p '=').dropWhile (· ≠ '=') = List.replicate p '=' := by
      rw [List.dropWhile_append_of_pos h]
      cases p <;> simp [List.replicate_succ]
    unfold b64Decode
    simp only [h1, h2, List.length_replicate, (hok p).2 hp, Bool.and_true, b64DecodeData_encode]
    simp

example : b64Decode c!"-_8AEA==" = some [0xfb, 0xff, 0x00, 0x10] := by decide

/-- C02.  Two texts without `=` that decode to the same bytes are the same text. -/
theorem C02_base64_decode_injective {s t : Str} {bs : Bytes} (hs : b64Decode s = some bs)
    (ht : b64Decode t = some bs) (ns : '=' ∉ s) (nt : '=' ∉ t) : s = t := by
  have key : ∀ {s : Str}, b64Decode s = some bs → '=' ∉ s → s = b64Encode bs := by
    intro s h n
    obtain ⟨p, rfl, -⟩ := b64Decode_sound h
    cases p with
    | zero => simp
    | succ p => simp [List.replicate_succ] at n
  rw [key hs ns, key ht nt]

example : b64Decode c!"AA" = some [0] ∧ '=' ∉ c!"AA" ∧ b64Decode c!"AB" = none := by decide

/-- C02.  A text with a character outside the alphabet and the padding sign is rejected. -/
theorem C02_base64_foreign_rejected {s : Str} {c : Char} (hc : c ∈ s) (ha : c ∉ alphabet)
    (hp : c ≠ '=') : b64Decode s = none := by
  cases h : b64Decode s with
  | none => rfl
  | some bs =>
    obtain ⟨text, p, -, ht, rfl⟩ := C02_base64_decode_canonical h
    rcases List.mem_append.1 hc with h1 | h1
    · exact absurd (ht.1 c h1) ha
    · exact absurd (List.eq_of_mem_replicate h1) hp

example : ('+' : Char) ∈ c!"a+b/" ∧ '+' ∉ alphabet := by decide

/-- C03.  Printing any tree whose numbers are JSON numbers gives a JSON document for it. -/
theorem C03_json_print_is_document {j : Json} (h : NumsOk j) : Document j (printJson j) :=
  parseJson_iff.1 (parseJson_print h)

/-- C03.  The parser accepts exactly the JSON documents of RFC 8259 and returns the tree they
denote (so a document denotes only one tree). -/
theorem C03_json_parse_exact (s : Str) (j : Json) : parseJson s = some j ↔ Document j s :=
  parseJson_iff

/-- C03.  Text round trip, over strings and over bytes. -/
theorem C03_json_roundtrip {j : Json} (h : NumsOk j) :
    parseJson (printJson j) = some j ∧ parseBytes (utf8 (printJson j)) = some j :=
  ⟨parseJson_print h, parseBytes_print h⟩

example : NumsOk (.obj [(c!"a\"\n😀", .arr [.num c!"-1.5e+3", .null, .obj []]), (c!"", .str c!"\\")]) :=
  ⟨⟨⟨['-'], ['1'], ['.', '5'], ['e', '+', '3'], rfl, Or.inr rfl,
      Or.inr ⟨⟨by simp, by decide⟩, by simp⟩, Or.inr ⟨['5'], ⟨by simp, by decide⟩, rfl⟩,
      Or.inr ⟨'e', ['+'], ['3'], Or.inl rfl, Or.inr (Or.inl rfl), ⟨by simp, by decide⟩, rfl⟩⟩,
    trivial, trivial, trivial⟩, trivial, trivial⟩

theorem hexVal_iff {c : Char} {n : Nat} : hexVal c = some n ↔ (c, n) ∈ hexTable := by
  constructor
  · intro h
    have hc : c.toNat < 103 := by
      unfold hexVal at h
      split at h
      · omega
      · split at h
        · omega
        · split at h
          · omega
          · cases h
    have key : ∀ k, k < 103 → (hexVal (Char.ofNat k)).all (fun n => (Char.ofNat k, n) ∈ hexTable) := by
      decide +kernel
    have := key c.toNat hc
    rw [Char.ofNat_toNat, h] at this
    simpa using this
  · have key : ∀ p ∈ hexTable, hexVal p.1 = some p.2 := by decide +kernel
    exact fun h => key (c, n) h

/-- C54.  The decoder accepts exactly the hexadecimal texts. -/
theorem C54_hex_decode_exact (s : Str) (bs : Bytes) : hexDecode s = some bs ↔ HexText s bs := by
  constructor
  · intro h
    induction s using hexDecode.induct generalizing bs with
    | case1 a b t x y r hr hy hx ih =>
      simp only [hexDecode, hr, hy, hx, Option.some.injEq] at h
      subst h
      have lx := hexVal_lt hx
      have ly := hexVal_lt hy
      refine .cons (hexVal_iff.1 hx) (hexVal_iff.1 hy) ?_ (ih _ hr)
      simp; omega
    | case2 a b t hn ih =>
      simp only [hexDecode] at h
      cases h
    | case3 a => cases h
    | case4 => cases h; exact .nil
  · intro h
    induction h with
    | nil => rfl
    | cons ha hb hn _ ih =>
      simp only [hexDecode, hexVal_iff.2 ha, hexVal_iff.2 hb, ih, Option.some.injEq, List.cons.injEq,
        and_true]
      rw [Nat.mul_comm, ← hn]
      simp

example : HexText c!"aF0b" [0xaf, 0x0b] :=
  .cons (x := 10) (y := 15) (by decide) (by decide) (by decide)
    (.cons (x := 0) (y := 11) (by decide) (by decide) (by decide) .nil)

/-- C54.  Decoding inverts encoding. -/
theorem C54_hex_roundtrip (bs : Bytes) : hexDecode (hexEncode bs) = some bs := hexDecode_encode bs

/-- C54.  Odd lengths and foreign characters are rejected. -/
theorem C54_hex_rejects {s : Str}
    (h : s.length % 2 = 1 ∨ ∃ c ∈ s, ∀ n, (c, n) ∉ hexTable) : hexDecode s = none := by
  cases hd : hexDecode s with
  | none => rfl
  | some bs =>
    exfalso
    have ht := (C54_hex_decode_exact s bs).1 hd
    clear hd
    induction ht with
    | nil => rcases h with h | ⟨c, hc, -⟩
             · simp at h
             · cases hc
    | cons ha hb hn _ ih =>
      apply ih
      rcases h with h | ⟨c, hc, hn⟩
      · left; simp only [List.length_cons] at h; omega
      · rcases List.mem_cons.1 hc with rfl | hc
        · exact absurd ha (hn _)
        · rcases List.mem_cons.1 hc with rfl | hc
          · exact absurd hb (hn _)
          · exact Or.inr ⟨c, hc, hn⟩

example : c!"abc".length % 2 = 1 := rfl

end Verif
