import Verif.Spec.StrInt
import Verif.Lemmas.Basic

/-! The pairwise summation of `StrInt::set` keeps the sum of the active cells. -/

namespace EoPsi.StrInt

@[simp] theorem addLoop_length (half f i : Nat) (b : List Nat) : (addLoop half f i b).length = b.length := by
  induction f generalizing i b with
  | zero => rfl
  | succ f ih => simp [addLoop, ih]

/-- After the inner loop the cells `i ≤ m < i + f` have been increased; the others are unchanged. -/
theorem addLoop_getD (half f i : Nat) (b : List Nat) (hi : i + f ≤ half) (hb : half + i + f ≤ b.length) (m : Nat) :
    (addLoop half f i b).getD m 0 = if i ≤ m ∧ m < i + f then b.getD m 0 + b.getD (half + m) 0 else b.getD m 0 := by
  induction f generalizing i b with
  | zero => simp [addLoop]
  | succ f ih =>
    unfold addLoop
    rw [ih (i + 1) _ (by omega) (by simp; omega)]
    by_cases hm : m = i
    · subst hm
      rw [if_neg (by omega), if_pos (by omega)]
      simp [List.getD_eq_getElem?_getD, show m < b.length by omega]
    · have e1 : ∀ v, (b.set i v).getD m 0 = b.getD m 0 := by
        intro v
        simp [List.getD_eq_getElem?_getD, Ne.symm hm]
      by_cases hc : i + 1 ≤ m ∧ m < i + 1 + f
      · have e2 : ∀ v, (b.set i v).getD (half + m) 0 = b.getD (half + m) 0 := by
          intro v
          simp [List.getD_eq_getElem?_getD, show i ≠ half + m by omega]
        rw [if_pos hc, if_pos (by omega), e1, e2]
      · rw [if_neg hc, if_neg (by omega), e1]

@[simp] theorem pass_length (j : Nat) (b : List Nat) : (pass j b).length = b.length := by
  unfold pass; simp only []; split <;> simp

theorem pass_getD (j : Nat) (b : List Nat) (hj : j ≤ b.length) (m : Nat) :
    (pass j b).getD m 0 = if m < j / 2 then b.getD m 0 + b.getD (j / 2 + m) 0
      else if j % 2 = 1 ∧ m = j / 2 then b.getD (j - 1) 0 else b.getD m 0 := by
  unfold pass
  have key := addLoop_getD (j / 2) (j / 2) 0 b (by omega) (by omega)
  simp only []
  split
  · rename_i hodd
    by_cases hm : m = j / 2
    · subst hm
      rw [if_neg (by omega), if_pos ⟨hodd, rfl⟩]
      have : j / 2 < b.length := by omega
      rw [List.getD_eq_getElem?_getD, List.getElem?_set]
      simp only [addLoop_length, this, if_true, Option.getD_some]
      rw [key]
      rw [if_neg (by omega)]
    · rw [if_neg (c := j % 2 = 1 ∧ m = j / 2) (by tauto)]
      rw [List.getD_eq_getElem?_getD, List.getElem?_set, if_neg (Ne.symm hm), ← List.getD_eq_getElem?_getD, key]
      simp
  · rename_i hodd
    rw [key, if_neg (c := j % 2 = 1 ∧ m = j / 2) (by tauto)]
    simp

theorem pass_sum (j : Nat) (b : List Nat) (hj : j ≤ b.length) :
    ∑ m ∈ Finset.range ((j + 1) / 2), (pass j b).getD m 0 = ∑ m ∈ Finset.range j, b.getD m 0 := by
  have hh : ∑ m ∈ Finset.range (j / 2), (pass j b).getD m 0
      = ∑ m ∈ Finset.range (2 * (j / 2)), b.getD m 0 := by
    rw [two_mul, Finset.sum_range_add, ← Finset.sum_add_distrib]
    apply Finset.sum_congr rfl
    intro m hm
    rw [pass_getD j b hj, if_pos (Finset.mem_range.1 hm)]
  rcases Nat.even_or_odd' j with ⟨c, rfl | rfl⟩
  · have e1 : (2 * c + 1) / 2 = c := by omega
    have e2 : 2 * c / 2 = c := by omega
    rw [e2] at hh; rw [e1, hh]
  · have e1 : (2 * c + 1 + 1) / 2 = c + 1 := by omega
    have e2 : (2 * c + 1) / 2 = c := by omega
    rw [e2] at hh
    rw [e1, Finset.sum_range_succ, Finset.sum_range_succ, hh, pass_getD _ b hj, if_neg (by omega), if_pos (by omega)]
    simp

theorem passes_sum (f j : Nat) (b : List Nat) (hj : j ≤ b.length) (hf : j ≤ f) (h1 : 1 ≤ j) :
    (passes f j b).getD 0 0 = ∑ m ∈ Finset.range j, b.getD m 0 := by
  induction f generalizing j b with
  | zero => omega
  | succ f ih =>
    unfold passes
    split
    · rw [ih _ _ (by simp; omega) (by omega) (by omega), pass_sum j b hj]
    · have : j = 1 := by omega
      subst this
      simp

@[simp] theorem passes_length (f j : Nat) (b : List Nat) : (passes f j b).length = b.length := by
  induction f generalizing j b with
  | zero => rfl
  | succ f ih => unfold passes; split <;> simp [ih]

theorem loadCells_length (bs : List Byte) (dim : Nat) (b : List Nat) (h : dim ≤ b.length) :
    (loadCells bs dim b).length = b.length := by
  simp [loadCells]; omega

theorem loadCells_getD (bs : List Byte) (dim : Nat) (b : List Nat) (m : Nat) (h : m < dim) :
    (loadCells bs dim b).getD m 0 = (bs.getD m 0).toNat * 2 ^ (8 * m) := by
  unfold loadCells
  rw [List.getD_eq_getElem?_getD, List.getElem?_append_left (by simpa using h)]
  simp [h]

/-- Objects as the constructor makes them: exactly `length ≥ 1` cells. -/
def Wf (s : StrInt) : Prop := s.b.length = s.length ∧ 1 ≤ s.length

theorem setBytes_spec (s : StrInt) (hs : s.Wf) (bs : List Byte) (len : Nat) (hl : 1 ≤ len)
    (hb : min len s.length ≤ bs.length) :
    ∃ s', s.setBytes (some bs) len = .ok s' ∧ s'.Wf ∧ s'.length = s.length ∧
      s'.z = zzFromBytes (bs.take (min len s.length)) ∧ s'.b.getD 0 0 = s'.z := by
  obtain ⟨hb1, hb2⟩ := hs
  have hdim : (if len > s.length then s.length else len) = min len s.length := by
    split <;> omega
  unfold setBytes
  simp only [hdim]
  rw [if_neg (by omega), if_neg (by omega)]
  refine ⟨_, rfl, ⟨?_, hb2⟩, rfl, ?_, rfl⟩
  · simp only [passes_length]
    rw [loadCells_length _ _ _ (by omega), hb1]
  · simp only []
    rw [passes_sum _ _ _ (by rw [loadCells_length _ _ _ (by omega)]; omega) le_rfl (by omega),
      zzFromBytes_eq_sum]
    have : (bs.take (min len s.length)).length = min len s.length := by
      rw [List.length_take]; omega
    rw [this]
    apply Finset.sum_congr rfl
    intro m hm
    have hm := Finset.mem_range.1 hm
    rw [loadCells_getD _ _ _ _ hm]
    rw [List.getD_eq_getElem?_getD, List.getD_eq_getElem?_getD, List.getElem?_take, if_pos hm,
      show (256 : Nat) = 2 ^ 8 from rfl, ← pow_mul]

theorem setBytes_zero (s : StrInt) (bs : Option (List Byte)) (len : Nat) (h : min len s.length = 0) :
    s.setBytes bs len = .ok { s with z := s.b.getD 0 0 } := by
  have hdim : (if len > s.length then s.length else len) = 0 := by
    split <;> omega
  unfold setBytes
  simp [hdim]

theorem setBytes_wf {s s' : StrInt} {bs : Option (List Byte)} {len : Nat} (hs : s.Wf)
    (h : s.setBytes bs len = .ok s') : s'.Wf ∧ s'.length = s.length := by
  obtain ⟨hb1, hb2⟩ := hs
  have hd : (if len > s.length then s.length else len) ≤ s.length := by split <;> omega
  unfold setBytes at h
  generalize (if len > s.length then s.length else len) = dim at h hd
  simp only [] at h
  split at h
  · injection h with h; subst h; exact ⟨⟨hb1, hb2⟩, rfl⟩
  · split at h
    · exact absurd h (by simp)
    · split at h
      · exact absurd h (by simp)
      · injection h with h; subst h
        refine ⟨⟨?_, hb2⟩, rfl⟩
        simp only [passes_length]
        rw [loadCells_length _ _ _ (by omega), hb1]

/-- The constructor gives a well-formed object. -/
theorem new_wf {bytes : Nat} {n : Option (List Byte)} {len : Nat} {s : StrInt} (h : StrInt.new bytes n len = .ok s) :
    s.Wf ∧ s.length = max bytes 1 := by
  have hL : (if bytes = 0 then 1 else bytes) = max bytes 1 := by split <;> omega
  unfold StrInt.new at h
  simp only [hL] at h
  have hw : StrInt.Wf ⟨max bytes 1, List.replicate (max bytes 1) 0, 0⟩ := by
    constructor <;> simp
  split at h
  · exact setBytes_wf hw h
  · exact setBytes_wf hw h

/-- One operation keeps the object well formed and agrees with the specification. -/
theorem Op.run_spec (s : StrInt) (hs : s.Wf) (o : Op) (ho : ∀ bs, o = .set bs → bs ≠ []) :
    ∃ s', o.run s = .ok s' ∧ s'.Wf ∧ s'.length = s.length ∧ s'.z = o.spec s.length s.z := by
  cases o with
  | set bs =>
    have hne : 1 ≤ bs.length := List.length_pos_iff.2 (ho bs rfl)
    obtain ⟨s', h1, h2, h3, h4, _⟩ := setBytes_spec s hs bs bs.length hne (by omega)
    refine ⟨s', h1, h2, h3, ?_⟩
    rw [h4, zzFromBytes_eq_sum]
    have e : (bs.take (min bs.length s.length)).length = min bs.length s.length := by
      rw [List.length_take]; omega
    rw [e]
    apply Finset.sum_congr rfl
    intro m hm
    rw [List.getD_eq_getElem?_getD, List.getD_eq_getElem?_getD, List.getElem?_take, if_pos (Finset.mem_range.1 hm)]
  | setNat n => exact ⟨_, rfl, hs, rfl, rfl⟩
  | inc => exact ⟨_, rfl, hs, rfl, rfl⟩
  | add n => exact ⟨_, rfl, ⟨by simpa [StrInt.add] using hs.1, hs.2⟩, rfl, rfl⟩

end EoPsi.StrInt
