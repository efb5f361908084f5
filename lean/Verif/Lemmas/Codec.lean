import Verif.Spec.Codec
import Verif.Lemmas.Basic

/-! # Byte layouts: lemmas -/

namespace EoPsi

theorem takeWhile_nulFree {s : Id} (h : NulFree s) : s.takeWhile (· ≠ 0) = s := by
  have : ∀ l : List Byte, (0 : Byte) ∉ l → l.takeWhile (· ≠ 0) = l := by
    intro l
    induction l with
    | nil => intro _; rfl
    | cons x l ih =>
      intro h
      have hx : x ≠ 0 := fun h0 => h (by simp [h0])
      rw [List.takeWhile_cons_of_pos (by simpa using hx), ih (fun h' => h (by simp [h']))]
  exact this s h

theorem zero_not_mem_takeWhile (s : List Byte) : (0 : Byte) ∉ s.takeWhile (· ≠ 0) := by
  induction s with
  | nil => simp
  | cons x l ih =>
    by_cases hx : x = 0
    · rw [List.takeWhile_cons_of_neg (by simpa using hx)]; simp
    · rw [List.takeWhile_cons_of_pos (by simpa using hx)]
      simp only [List.mem_cons, not_or]
      exact ⟨fun h => hx h.symm, ih⟩

theorem encodeStr_nulFree {s : Id} (h : NulFree s) : encodeStr s = s ++ [0] := by
  unfold encodeStr
  rw [takeWhile_nulFree h]
  simp

@[simp] theorem encodeStr_length (s : Id) : (encodeStr s).length = s.length + 1 := by
  unfold encodeStr
  have := (List.takeWhile_prefix (l := s) (fun b : Byte => decide (b ≠ 0))).length_le
  simp only [List.length_append, List.length_replicate]
  omega

/-- Reading back a C string that `strcpy` wrote gives the part before the first NUL. -/
theorem cString_encodeStr (s : Id) (rest : List Byte) : cString (encodeStr s ++ rest) = .ok (s.takeWhile (· ≠ 0)) := by
  unfold encodeStr
  have hl := (List.takeWhile_prefix (l := s) (fun b : Byte => decide (b ≠ 0))).length_le
  obtain ⟨k, hk⟩ : ∃ k, s.length + 1 - (s.takeWhile (· ≠ 0)).length = k + 1 := ⟨s.length - (s.takeWhile (· ≠ 0)).length, by omega⟩
  simp only at hk ⊢
  rw [hk, List.replicate_succ, List.append_assoc, List.cons_append]
  apply cString_append
  exact zero_not_mem_takeWhile s

theorem readBytes_append (a b c : List Byte) (off n : Nat) (h1 : a.length = off) (h2 : b.length = n) :
    readBytes (a ++ b ++ c) off n = .ok b := by
  unfold readBytes
  rw [if_pos (by simp only [List.length_append]; omega)]
  subst h1 h2
  simp

theorem requestData_reads {own partner : Id} (h1 : NulFree own) (h2 : NulFree partner) {key : Nat}
    (hk : key < 2 ^ keyBits) : ReadsRequest (requestData own partner key) own partner key where
  readsOwn := by
    unfold requestData
    rw [List.append_assoc, List.append_assoc, cString_encodeStr, takeWhile_nulFree h1]
  readsPartner := by
    unfold requestData
    rw [List.append_assoc, List.append_assoc, List.drop_append, List.drop_of_length_le (by simp)]
    simp only [encodeStr_length, Nat.sub_self, List.drop_zero, List.nil_append]
    rw [cString_encodeStr, takeWhile_nulFree h2]
  readsKey := by
    refine ⟨bytesFromNat key (bytesOfBits keyBits), ?_, ?_⟩
    · unfold requestData
      apply readBytes_append
      · simp only [List.length_append, encodeStr_length]; omega
      · simp
    · rw [zzFromBytes_bytesFromNat, Nat.mod_eq_of_lt]
      exact hk

theorem requestData_length (own partner : Id) (key : Nat) :
    (requestData own partner key).length = own.length + 1 + (partner.length + 1) + 16 + 1 := by
  unfold requestData; simp [bytesOfBits, keyBits]; omega

/-! ## The three bytes of the secret -/

theorem clientRequest_claims {id : Id} (h : NulFree id) (secret : Int) : cString (clientRequestData id secret) = .ok id := by
  unfold clientRequestData
  rw [List.append_assoc, cString_encodeStr, takeWhile_nulFree h]

theorem clientRequest_three (id : Id) (secret : Int) :
    readBytes (clientRequestData id secret) (id.length + 1) 3 =
      if bytesOfZZ secret < 2 then .error (.ub .outOfBounds)
      else .ok ((bytesFromZZ secret (bytesOfZZ secret) ++ [0]).take 3) := by
  unfold readBytes clientRequestData
  have hl : (bytesFromZZ secret (bytesOfZZ secret)).length = bytesOfZZ secret := by simp [bytesFromZZ]
  by_cases h : bytesOfZZ secret < 2
  · rw [if_pos h, if_neg]
    simp only [List.length_append, encodeStr_length, List.length_singleton, hl]
    omega
  · rw [if_neg h, if_pos]
    · rw [List.append_assoc, List.drop_append, List.drop_of_length_le (by simp)]
      simp
    · simp only [List.length_append, encodeStr_length, List.length_singleton, hl]
      omega

theorem zzFromBytes_three (secret : Int) :
    zzFromBytes ((bytesFromZZ secret (bytesOfZZ secret) ++ [0]).take 3) = secret.natAbs % 2 ^ 24 := by
  rw [zzFromBytes_take_mod, zzFromBytes_append]
  simp only [bytesFromZZ, zzFromBytes_bytesFromNat, zzFromBytes]
  rw [Nat.mod_eq_of_lt (natAbs_lt_bytesOfZZ secret)]
  simp

theorem bytesOfZZ_lt_two (secret : Int) : bytesOfZZ secret < 2 ↔ secret.natAbs < 2 ^ 8 := by
  rw [← numBits_le_iff]; unfold bytesOfZZ; omega

/-! ## The temporary key -/

theorem drawKey_eq (l : List Nat) :
    drawKey l = match drawUntil (fun d => decide (2 ^ 127 ≤ d % 2 ^ 128)) l with
      | .ok (d, rest) => .ok (d % 2 ^ 128, rest)
      | .error e => .error e := by
  induction l with
  | nil => rfl
  | cons d ds ih =>
    unfold drawKey drawUntil
    have h : numBits ((randomBits keyBits d : Nat) : Int) < keyBits ↔ ¬ 2 ^ 127 ≤ d % 2 ^ 128 := by
      have := lt_numBits_iff ((d % 2 ^ 128 : Nat) : Int) 127
      rw [Int.natAbs_natCast] at this
      rw [← this]
      unfold randomBits keyBits
      omega
    by_cases hd : 2 ^ 127 ≤ d % 2 ^ 128
    · simp only [h, hd, not_true, if_false, decide_true, if_true]
      rfl
    · simp only [h, hd, not_false_eq_true, if_true, decide_false, Bool.false_eq_true, if_false]
      exact ih

theorem drawKey_ok {l : List Nat} {k : Nat} {rest : List Nat} (h : drawKey l = .ok (k, rest)) :
    2 ^ 127 ≤ k ∧ k < 2 ^ 128 ∧ ∃ pre d, l = pre ++ d :: rest ∧ k = d % 2 ^ 128 ∧
      ∀ e ∈ pre, e % 2 ^ 128 < 2 ^ 127 := by
  rw [drawKey_eq] at h
  cases hd : drawUntil (fun d => decide (2 ^ 127 ≤ d % 2 ^ 128)) l with
  | error e => rw [hd] at h; simp at h
  | ok x =>
    obtain ⟨d, r⟩ := x
    rw [hd] at h
    simp only [Except.ok.injEq, Prod.mk.injEq] at h
    obtain ⟨rfl, rfl⟩ := h
    obtain ⟨pre, h1, h2, h3⟩ := drawUntil_ok hd
    refine ⟨by simpa using h2, Nat.mod_lt _ (by positivity), pre, d, h1, rfl, fun e he => ?_⟩
    have := h3 e he
    simpa using this

theorem drawKey_of {pre rest : List Nat} {d : Nat} (hd : 2 ^ 127 ≤ d % 2 ^ 128)
    (hpre : ∀ e ∈ pre, e % 2 ^ 128 < 2 ^ 127) : drawKey (pre ++ d :: rest) = .ok (d % 2 ^ 128, rest) := by
  rw [drawKey_eq, drawUntil_of_append pre d rest (by simpa using hd)]
  intro y hy; simpa using hpre y hy

theorem drawKey_none {l : List Nat} (h : ∀ e ∈ l, e % 2 ^ 128 < 2 ^ 127) : drawKey l = .error .outOfDraws := by
  rw [drawKey_eq, drawUntil_none]
  intro y hy; simpa using h y hy

end EoPsi
