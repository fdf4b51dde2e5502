import Verif.Model.Base64
import Verif.Proofs.Utf8

/-! # Base64: round trip, alphabet -/

namespace Pfp.Base64

theorem val_sym : ∀ n, n < 64 → val (sym n) = some n := by decide

theorem sym_ne_eq : ∀ n, n < 64 → sym n ≠ '=' := by decide

/-- Two encoded groups. -/
theorem dec2_sym (x : UInt8) : dec2 (sym (x.toNat / 4)) (sym (x.toNat % 4 * 16)) = some [x] := by
  have hx : x.toNat < 256 := x.toNat_lt
  unfold dec2
  rw [val_sym _ (by omega), val_sym _ (by omega)]
  simp only [Option.bind_eq_bind, Option.bind_some]
  rw [if_pos (by omega)]
  have : x.toNat / 4 * 4 + x.toNat % 4 * 16 / 16 = x.toNat := by omega
  rw [this]; simp

theorem dec3_sym (x y : UInt8) :
    dec3 (sym (x.toNat / 4)) (sym (x.toNat % 4 * 16 + y.toNat / 16)) (sym (y.toNat % 16 * 4)) = some [x, y] := by
  have hx : x.toNat < 256 := x.toNat_lt
  have hy : y.toNat < 256 := y.toNat_lt
  unfold dec3
  rw [val_sym _ (by omega), val_sym _ (by omega), val_sym _ (by omega)]
  simp only [Option.bind_eq_bind, Option.bind_some]
  rw [if_pos (by omega)]
  have h1 : x.toNat / 4 * 4 + (x.toNat % 4 * 16 + y.toNat / 16) / 16 = x.toNat := by omega
  have h2 : (x.toNat % 4 * 16 + y.toNat / 16) % 16 * 16 + y.toNat % 16 * 4 / 4 = y.toNat := by omega
  rw [h1, h2]; simp

theorem dec4_sym (x y z : UInt8) :
    dec4 (sym (x.toNat / 4)) (sym (x.toNat % 4 * 16 + y.toNat / 16)) (sym (y.toNat % 16 * 4 + z.toNat / 64))
      (sym (z.toNat % 64)) = some [x, y, z] := by
  have hx : x.toNat < 256 := x.toNat_lt
  have hy : y.toNat < 256 := y.toNat_lt
  have hz : z.toNat < 256 := z.toNat_lt
  unfold dec4
  rw [val_sym _ (by omega), val_sym _ (by omega), val_sym _ (by omega), val_sym _ (by omega)]
  simp only [Option.bind_eq_bind, Option.bind_some]
  have h1 : x.toNat / 4 * 4 + (x.toNat % 4 * 16 + y.toNat / 16) / 16 = x.toNat := by omega
  have h2 : (x.toNat % 4 * 16 + y.toNat / 16) % 16 * 16 + (y.toNat % 16 * 4 + z.toNat / 64) / 4 = y.toNat := by
    omega
  have h3 : (y.toNat % 16 * 4 + z.toNat / 64) % 4 * 64 + z.toNat % 64 = z.toNat := by omega
  rw [h1, h2, h3]; simp

/-- The round trip. -/
theorem decode_encode : ∀ b : Bytes, decode (encode b) = some b
  | [] => rfl
  | [x] => by
    simp only [encode, decode, if_true]
    exact dec2_sym x
  | [x, y] => by
    have hy : y.toNat < 256 := y.toNat_lt
    simp only [encode, decode, if_true]
    rw [if_neg (sym_ne_eq _ (by omega))]
    exact dec3_sym x y
  | [x, y, z] => by
    simp only [encode, decode]
    rw [if_neg (sym_ne_eq _ (by omega))]
    exact dec4_sym x y z
  | x :: y :: z :: a :: t => by
    have ih := decode_encode (a :: t)
    obtain ⟨e, t', he⟩ : ∃ e t', encode (a :: t) = e :: t' := by
      match t with
      | [] => exact ⟨_, _, rfl⟩
      | [_] => exact ⟨_, _, rfl⟩
      | _ :: _ :: _ => exact ⟨_, _, rfl⟩
    rw [encode, he, decode, dec4_sym, ← he, ih]
    simp

theorem encode_injective {a b : Bytes} (h : encode a = encode b) : a = b := by
  have := decode_encode a
  rw [h, decode_encode] at this
  exact (Option.some.inj this).symm

/-- Characters of encoded text. -/
def isB64 (c : Char) : Bool := alphabet.contains c || c == '='

theorem sym_isB64 : ∀ n, n < 64 → isB64 (sym n) = true := by decide

theorem encode_isB64 : ∀ (b : Bytes) (c : Char), c ∈ encode b → isB64 c = true
  | [], c, h => by simp [encode] at h
  | [x], c, h => by
    have hx : x.toNat < 256 := x.toNat_lt
    simp only [encode, List.mem_cons, List.not_mem_nil, or_false] at h
    rcases h with rfl | rfl | rfl | rfl
    · exact sym_isB64 _ (by omega)
    · exact sym_isB64 _ (by omega)
    · decide
    · decide
  | [x, y], c, h => by
    have hx : x.toNat < 256 := x.toNat_lt
    have hy : y.toNat < 256 := y.toNat_lt
    simp only [encode, List.mem_cons, List.not_mem_nil, or_false] at h
    rcases h with rfl | rfl | rfl | rfl
    · exact sym_isB64 _ (by omega)
    · exact sym_isB64 _ (by omega)
    · exact sym_isB64 _ (by omega)
    · decide
  | x :: y :: z :: t, c, h => by
    have hx : x.toNat < 256 := x.toNat_lt
    have hy : y.toNat < 256 := y.toNat_lt
    have hz : z.toNat < 256 := z.toNat_lt
    simp only [encode, List.mem_cons] at h
    rcases h with rfl | rfl | rfl | rfl | h
    · exact sym_isB64 _ (by omega)
    · exact sym_isB64 _ (by omega)
    · exact sym_isB64 _ (by omega)
    · exact sym_isB64 _ (by omega)
    · exact encode_isB64 t c h

theorem not_mem_encode {c : Char} (hc : isB64 c = false) (b : Bytes) : c ∉ encode b := by
  intro h
  have := encode_isB64 b c h
  rw [hc] at this; cases this

theorem underscore_not_mem (b : Bytes) : '_' ∉ encode b := not_mem_encode (by decide) b
theorem colon_not_mem (b : Bytes) : ':' ∉ encode b := not_mem_encode (by decide) b

theorem encode_length : ∀ b : Bytes, (encode b).length = (b.length + 2) / 3 * 4
  | [] => rfl
  | [_] => by simp [encode]
  | [_, _] => by simp [encode]
  | _ :: _ :: _ :: t => by
    simp only [encode, List.length_cons, encode_length t]
    omega

theorem sym_val {c : Char} {n : Nat} (h : val c = some n) : n < 64 ∧ sym n = c := by
  unfold val at h
  obtain ⟨hn, hc⟩ : ∃ hn : n < alphabet.length, alphabet[n] = c := by
    obtain ⟨h1, h2, _⟩ := List.findIdx?_eq_some_iff_getElem.mp h
    exact ⟨h1, by simpa using h2⟩
  refine ⟨hn, ?_⟩
  unfold sym
  rw [List.getD_eq_getElem?_getD, List.getElem?_eq_getElem hn, hc]; rfl

theorem of_dec2 {a b : Char} {l : Bytes} (h : dec2 a b = some l) : encode l = [a, b, '=', '='] := by
  unfold dec2 at h
  cases ha : val a with
  | none => simp [ha] at h
  | some x =>
    cases hb : val b with
    | none => simp [ha, hb] at h
    | some y =>
      obtain ⟨hx, rfl⟩ := sym_val ha
      obtain ⟨hy, rfl⟩ := sym_val hb
      simp only [ha, hb, Option.bind_eq_bind, Option.bind_some] at h
      split at h
      · cases h
        simp only [encode]
        have e : (UInt8.ofNat (x * 4 + y / 16)).toNat = x * 4 + y / 16 := UInt8.toNat_ofNat_of_lt' (by show _ < 256; omega)
        rw [e]
        congr 2
        · omega
        · congr 1
          · congr 1; omega
      · cases h

theorem of_dec3 {a b c : Char} {l : Bytes} (h : dec3 a b c = some l) : encode l = [a, b, c, '='] := by
  unfold dec3 at h
  cases ha : val a with
  | none => simp [ha] at h
  | some x =>
    cases hb : val b with
    | none => simp [ha, hb] at h
    | some y =>
      cases hc : val c with
      | none => simp [ha, hb, hc] at h
      | some z =>
        obtain ⟨hx, rfl⟩ := sym_val ha
        obtain ⟨hy, rfl⟩ := sym_val hb
        obtain ⟨hz, rfl⟩ := sym_val hc
        simp only [ha, hb, hc, Option.bind_eq_bind, Option.bind_some] at h
        split at h
        · cases h
          simp only [encode]
          have e : (UInt8.ofNat (x * 4 + y / 16)).toNat = x * 4 + y / 16 := UInt8.toNat_ofNat_of_lt' (by show _ < 256; omega)
          have e' : (UInt8.ofNat (y % 16 * 16 + z / 4)).toNat = y % 16 * 16 + z / 4 := UInt8.toNat_ofNat_of_lt' (by show _ < 256; omega)
          rw [e, e', show (x * 4 + y / 16) / 4 = x by omega,
            show (x * 4 + y / 16) % 4 * 16 + (y % 16 * 16 + z / 4) / 16 = y by omega,
            show (y % 16 * 16 + z / 4) % 16 * 4 = z by omega]
        · cases h

theorem of_dec4 {a b c d : Char} {l : Bytes} (h : dec4 a b c d = some l) :
    ∃ x y z, l = [x, y, z] ∧ ∀ t, encode (x :: y :: z :: t) = a :: b :: c :: d :: encode t := by
  unfold dec4 at h
  cases ha : val a with
  | none => simp [ha] at h
  | some x =>
    cases hb : val b with
    | none => simp [ha, hb] at h
    | some y =>
      cases hc : val c with
      | none => simp [ha, hb, hc] at h
      | some z =>
        cases hd : val d with
        | none => simp [ha, hb, hc, hd] at h
        | some u =>
          obtain ⟨hx, rfl⟩ := sym_val ha
          obtain ⟨hy, rfl⟩ := sym_val hb
          obtain ⟨hz, rfl⟩ := sym_val hc
          obtain ⟨hu, rfl⟩ := sym_val hd
          simp only [ha, hb, hc, hd, Option.bind_eq_bind, Option.bind_some] at h
          cases h
          refine ⟨_, _, _, rfl, fun t => ?_⟩
          rw [encode]
          have e : (UInt8.ofNat (x * 4 + y / 16)).toNat = x * 4 + y / 16 := UInt8.toNat_ofNat_of_lt' (by show _ < 256; omega)
          have e' : (UInt8.ofNat (y % 16 * 16 + z / 4)).toNat = y % 16 * 16 + z / 4 := UInt8.toNat_ofNat_of_lt' (by show _ < 256; omega)
          have e'' : (UInt8.ofNat (z % 4 * 64 + u)).toNat = z % 4 * 64 + u := UInt8.toNat_ofNat_of_lt' (by show _ < 256; omega)
          rw [e, e', e'', show (x * 4 + y / 16) / 4 = x by omega,
            show (x * 4 + y / 16) % 4 * 16 + (y % 16 * 16 + z / 4) / 16 = y by omega,
            show (y % 16 * 16 + z / 4) % 16 * 4 + (z % 4 * 64 + u) / 64 = z by omega,
            show (z % 4 * 64 + u) % 64 = u by omega]

/-- What decodes is the encoding, possibly without its padding. -/
theorem of_decode : ∀ {t : Str} {b : Bytes}, decode t = some b → ∃ k, k ≤ 2 ∧ t ++ List.replicate k '=' = encode b
  | [], b, h => by cases h; exact ⟨0, by omega, rfl⟩
  | [_], b, h => by cases h
  | [x, y], b, h => ⟨2, by omega, (of_dec2 h).symm⟩
  | [x, y, z], b, h => by
    rw [decode] at h
    split at h
    · rename_i hz; subst hz
      exact ⟨1, by omega, (of_dec2 h).symm⟩
    · exact ⟨1, by omega, (of_dec3 h).symm⟩
  | [x, y, z, u], b, h => by
    rw [decode] at h
    refine ⟨0, by omega, ?_⟩
    split at h
    · rename_i hu; subst hu
      split at h
      · rename_i hz; subst hz
        exact (of_dec2 h).symm
      · exact (of_dec3 h).symm
    · obtain ⟨p, q, r, rfl, he⟩ := of_dec4 h
      exact (he []).symm
  | x :: y :: z :: u :: e :: t, b, h => by
    rw [decode] at h
    cases h4 : dec4 x y z u with
    | none => simp [h4] at h
    | some l =>
      cases hr : decode (e :: t) with
      | none => simp [h4, hr] at h
      | some m =>
        simp only [h4, hr, Option.bind_eq_bind, Option.bind_some] at h
        cases h
        obtain ⟨k, hk, hm⟩ := of_decode hr
        obtain ⟨p, q, r, rfl, he⟩ := of_dec4 h4
        refine ⟨k, hk, ?_⟩
        show x :: y :: z :: u :: ((e :: t) ++ _) = encode (p :: q :: r :: m)
        rw [hm, he]

theorem replicate_head {k : Nat} {c d : Char} {l : Str} (h : List.replicate k d = c :: l) : c = d := by
  have : c ∈ List.replicate k d := by rw [h]; simp
  exact List.eq_of_mem_replicate this

theorem replicate_tail {k : Nat} {c d : Char} {l : Str} (h : List.replicate k d = c :: l) : List.replicate (k - 1) d = l := by
  cases k with
  | zero => cases h
  | succ k => rw [List.replicate_succ] at h; cases h; rfl

/-- The encoding without its padding decodes as well. -/
theorem decode_unpadded : ∀ (b : Bytes) {t : Str} {k : Nat}, t ++ List.replicate k '=' = encode b → decode t = some b
  | [], t, k, h => by
    have : t = [] := (List.append_eq_nil_iff.mp h).1
    subst this; rfl
  | [x], t, k, h => by
    have hx := x.toNat_lt
    have h0 : sym (x.toNat / 4) ≠ '=' := sym_ne_eq _ (by omega)
    have h1 : sym (x.toNat % 4 * 16) ≠ '=' := sym_ne_eq _ (by omega)
    have hd := dec2_sym x
    rw [encode] at h
    match t, h with
    | [], h => exact absurd (replicate_head h) h0
    | [_], h => injection h with _ h; exact absurd (replicate_head h) h1
    | [_, _], h => injection h with e h; injection h with e' h; subst e; subst e'; exact hd
    | [_, _, _], h =>
      injection h with e h; injection h with e' h; injection h with e'' h
      subst e; subst e'; subst e''; rw [decode, if_pos rfl]; exact hd
    | [_, _, _, _], h =>
      injection h with e h; injection h with e' h; injection h with e'' h; injection h with e3 h
      subst e; subst e'; subst e''; subst e3; rw [decode, if_pos rfl, if_pos rfl]; exact hd
    | _ :: _ :: _ :: _ :: _ :: _, h =>
      have := congrArg List.length h
      simp at this
  | [x, y], t, k, h => by
    have hx := x.toNat_lt
    have hy := y.toNat_lt
    have h0 : sym (x.toNat / 4) ≠ '=' := sym_ne_eq _ (by omega)
    have h1 : sym (x.toNat % 4 * 16 + y.toNat / 16) ≠ '=' := sym_ne_eq _ (by omega)
    have h2 : sym (y.toNat % 16 * 4) ≠ '=' := sym_ne_eq _ (by omega)
    have hd := dec3_sym x y
    rw [encode] at h
    match t, h with
    | [], h => exact absurd (replicate_head h) h0
    | [_], h => injection h with _ h; exact absurd (replicate_head h) h1
    | [_, _], h => injection h with e h; injection h with e' h; exact absurd (replicate_head h) h2
    | [_, _, _], h =>
      injection h with e h; injection h with e' h; injection h with e'' h
      subst e; subst e'; subst e''; rw [decode, if_neg h2]; exact hd
    | [_, _, _, _], h =>
      injection h with e h; injection h with e' h; injection h with e'' h; injection h with e3 h
      subst e; subst e'; subst e''; subst e3; rw [decode, if_pos rfl, if_neg h2]; exact hd
    | _ :: _ :: _ :: _ :: _ :: _, h =>
      have := congrArg List.length h
      simp at this
  | x :: y :: z :: b, t, k, h => by
    have hx := x.toNat_lt
    have hy := y.toNat_lt
    have hz := z.toNat_lt
    have h0 : sym (x.toNat / 4) ≠ '=' := sym_ne_eq _ (by omega)
    have h1 : sym (x.toNat % 4 * 16 + y.toNat / 16) ≠ '=' := sym_ne_eq _ (by omega)
    have h2 : sym (y.toNat % 16 * 4 + z.toNat / 64) ≠ '=' := sym_ne_eq _ (by omega)
    have h3 : sym (z.toNat % 64) ≠ '=' := sym_ne_eq _ (by omega)
    have hd := dec4_sym x y z
    rw [encode] at h
    match t, h with
    | [], h => exact absurd (replicate_head h) h0
    | [_], h => injection h with _ h; exact absurd (replicate_head h) h1
    | [_, _], h => injection h with e h; injection h with e' h; exact absurd (replicate_head h) h2
    | [_, _, _], h =>
      injection h with e h; injection h with e' h; injection h with e'' h
      exact absurd (replicate_head h) h3
    | [_, _, _, _], h =>
      injection h with e h; injection h with e' h; injection h with e'' h; injection h with e3 h
      subst e; subst e'; subst e''; subst e3
      rw [decode, if_neg h3, hd]
      have := decode_unpadded b (t := []) h
      cases this
      rfl
    | _ :: _ :: _ :: _ :: c :: t, h =>
      injection h with e h; injection h with e' h; injection h with e'' h; injection h with e3 h
      subst e; subst e'; subst e''; subst e3
      rw [decode, hd, decode_unpadded b (t := c :: t) h]
      rfl

/-- Exactly the encodings, with or without padding, can be decoded. -/
theorem decode_iff (t : Str) (b : Bytes) : decode t = some b ↔ ∃ k, t ++ List.replicate k '=' = encode b :=
  ⟨fun h => (of_decode h).imp fun _ h => h.2, fun ⟨_, h⟩ => decode_unpadded b h⟩

end Pfp.Base64
