import Verif.Lemmas.Codec

/-! # Request messages: what is packed is what is unpacked -/

namespace EoPsi

/-- **C13.** What a client packs into a cloud request is what the server unpacks, whatever the (NUL-free) ids and the
128-bit key; all reads of the server stay inside the buffer, which is exactly filled. -/
theorem C13_round_trip (own partner : Id) (h1 : NulFree own) (h2 : NulFree partner) (key : Nat) (hk : key < 2 ^ 128) :
    ReadsRequest (requestData own partner key) own partner key ∧
    (requestData own partner key).length = own.length + partner.length + 19 :=
  ⟨requestData_reads h1 h2 hk, by rw [requestData_length]; omega⟩

/-- **C13.** The three parts determine the message and the message determines them: no two different requests look the
same on the wire. -/
theorem C13_injective (own partner own' partner' : Id) (h1 : NulFree own) (h2 : NulFree partner) (h1' : NulFree own')
    (h2' : NulFree partner') (key key' : Nat) (hk : key < 2 ^ 128) (hk' : key' < 2 ^ 128)
    (h : requestData own partner key = requestData own' partner' key') : own = own' ∧ partner = partner' ∧ key = key' := by
  have r := requestData_reads h1 h2 hk
  have r' := requestData_reads h1' h2' hk'
  rw [h] at r
  have e1 : own = own' := Except.ok.inj (r.readsOwn.symm.trans r'.readsOwn)
  subst e1
  have e2 : partner = partner' := Except.ok.inj (r.readsPartner.symm.trans r'.readsPartner)
  subst e2
  obtain ⟨kb, a1, a2⟩ := r.readsKey
  obtain ⟨kb', b1, b2⟩ := r'.readsKey
  have e3 : kb = kb' := Except.ok.inj (a1.symm.trans b1)
  exact ⟨rfl, rfl, by rw [← a2, ← b2, e3]⟩

/-- **C13.** NUL-freeness is necessary: an id with a NUL byte inside is never read back as itself. -/
theorem C13_nul_truncates (own partner : Id) (key : Nat) (h : ¬ NulFree own) :
    ∃ id, cString (requestData own partner key) = .ok id ∧ id ≠ own := by
  refine ⟨own.takeWhile (· ≠ 0), ?_, fun he => ?_⟩
  · unfold requestData; rw [List.append_assoc, List.append_assoc, cString_encodeStr]
  · apply h
    unfold NulFree
    rw [← he]; exact zero_not_mem_takeWhile own

/-- Non-vacuity: "Al", "Bob" and a key. -/
example : NulFree [65, 108] ∧ NulFree [66, 111, 98] ∧ (2 ^ 127 + 5 < 2 ^ 128) := by
  refine ⟨?_, ?_, by norm_num⟩ <;> unfold NulFree <;> decide
example : ¬ NulFree [65, 0, 66] := by unfold NulFree; decide

/-- **C14.** The secret a helping client reads from a request: exact for `2^8 ≤ secret < 2^24`. -/
theorem C14_exact (id : Id) (secret : Int) (h8 : 2 ^ 8 ≤ secret) (h24 : secret < 2 ^ 24) :
    ∃ b, readBytes (clientRequestData id secret) (id.length + 1) 3 = .ok b ∧ (zzFromBytes b : Int) = secret := by
  refine ⟨_, by rw [clientRequest_three, if_neg]; rw [bytesOfZZ_lt_two]; omega, ?_⟩
  rw [zzFromBytes_three]
  omega

/-- **C14.** In general the absolute value modulo `2^24` is read ... -/
theorem C14_reduced (id : Id) (secret : Int) (h8 : 2 ^ 8 ≤ secret.natAbs) :
    ∃ b, readBytes (clientRequestData id secret) (id.length + 1) 3 = .ok b ∧ zzFromBytes b = secret.natAbs % 2 ^ 24 :=
  ⟨_, by rw [clientRequest_three, if_neg]; rw [bytesOfZZ_lt_two]; omega, zzFromBytes_three secret⟩

/-- **C14.** ... and a secret of fewer than nine bits makes the client read beyond the buffer. -/
theorem C14_too_short (id : Id) (secret : Int) (h8 : secret.natAbs < 2 ^ 8) :
    readBytes (clientRequestData id secret) (id.length + 1) 3 = .error (.ub .outOfBounds) := by
  rw [clientRequest_three, if_pos]; rw [bytesOfZZ_lt_two]; exact h8

/-- **C14.** So the secret is understood exactly if `2^8 ≤ secret < 2^24`. -/
theorem C14_iff (id : Id) (secret : Int) :
    (∃ b, readBytes (clientRequestData id secret) (id.length + 1) 3 = .ok b ∧ (zzFromBytes b : Int) = secret) ↔
      2 ^ 8 ≤ secret ∧ secret < 2 ^ 24 := by
  constructor
  · rintro ⟨b, hb, hs⟩
    by_cases h : secret.natAbs < 2 ^ 8
    · rw [C14_too_short id secret h] at hb; simp at hb
    · obtain ⟨b', hb', hs'⟩ := C14_reduced id secret (by omega)
      rw [hb] at hb'
      obtain rfl := Except.ok.inj hb'
      rw [hs'] at hs
      omega
  · rintro ⟨h1, h2⟩; exact C14_exact id secret h1 h2

/-- Non-vacuity: the simulator's secrets "\0\0\x02" and "\0\0\x01" are in the good range; 255 and 2^24 are not. -/
example : (2 ^ 8 ≤ (131072 : Int) ∧ (131072 : Int) < 2 ^ 24) ∧ (2 ^ 8 ≤ (65536 : Int) ∧ (65536 : Int) < 2 ^ 24) ∧
    (255 : Int).natAbs < 2 ^ 8 ∧ ((2 : Int) ^ 24 + 7).natAbs % 2 ^ 24 = 7 := by decide

/-- **C15.** Whatever the random draws, the key is the first draw whose 128 low bits have the top bit set, reduced to 128
bits; it has exactly 128 bits and is unchanged by its trip through 16 bytes. -/
theorem C15_key (draws rest : List Nat) (key : Nat) (h : drawKey draws = .ok (key, rest)) :
    (∃ pre d, draws = pre ++ d :: rest ∧ key = d % 2 ^ 128 ∧ ∀ e ∈ pre, e % 2 ^ 128 < 2 ^ 127) ∧
    numBits key = 128 ∧ bytesOfBits 128 = 16 ∧ zzFromBytes (bytesFromNat key 16) = key := by
  obtain ⟨h1, h2, h3⟩ := drawKey_ok h
  refine ⟨h3, ?_, rfl, ?_⟩
  · have a := (numBits_le_iff (key : Int) 128).2 (by simpa using h2)
    have b := (lt_numBits_iff (key : Int) 127).2 (by simpa using h1)
    omega
  · rw [zzFromBytes_bytesFromNat]; exact Nat.mod_eq_of_lt (by norm_num at *; omega)

/-- **C15.** The loop ends exactly if some draw has the bit set. -/
theorem C15_terminates_iff (draws : List Nat) :
    (∃ key rest, drawKey draws = .ok (key, rest)) ↔ ∃ d ∈ draws, 2 ^ 127 ≤ d % 2 ^ 128 := by
  constructor
  · rintro ⟨key, rest, h⟩
    obtain ⟨h1, h2, pre, d, rfl, rfl, -⟩ := drawKey_ok h
    exact ⟨d, by simp, h1⟩
  · rintro ⟨d, hd, h1⟩
    by_contra hn
    push Not at hn
    rw [drawKey_eq] at hn
    cases hu : drawUntil (fun d => decide (2 ^ 127 ≤ d % 2 ^ 128)) draws with
    | ok x => rw [hu] at hn; exact hn _ _ rfl
    | error e =>
      clear hn
      induction draws with
      | nil => simp at hd
      | cons y ys ih =>
        unfold drawUntil at hu
        split at hu
        · simp at hu
        · rename_i hy
          rcases List.mem_cons.mp hd with rfl | hd
          · exact hy (decide_eq_true h1)
          · exact ih hd hu

/-- Non-vacuity: a short draw is skipped. -/
example : drawKey [5, 2 ^ 127 + 3, 9] = .ok (2 ^ 127 + 3, [9]) :=
  drawKey_of (pre := [5]) (d := 2 ^ 127 + 3) (rest := [9]) (by norm_num) (by intro e he; simp at he; subst he; norm_num)

end EoPsi
