import Verif.Spec.Simul
import Verif.Lemmas.Bench
import Mathlib.Data.List.Dedup
import Mathlib.Data.List.Perm.Subperm

/-! # The helpers of the simulator -/

namespace EoPsi.Simul

theorem copyLoop_eq (set : List Int) (i : Nat) (res : List Int) :
    copyLoop set set.length i res = .ok (res ++ set.drop i) := by
  unfold copyLoop
  by_cases h : i < set.length
  · rw [if_pos h, atC_ok (List.getElem?_eq_getElem h), ok_bind, copyLoop_eq set (i + 1), List.append_assoc, List.drop_eq_getElem_cons h]
    rfl
  · rw [if_neg h, List.drop_eq_nil_of_le (by omega), List.append_nil]
termination_by set.length - i

theorem join_eq (s1 s2 : List Int) : join s1 s1.length s2 s2.length = .ok (s1 ++ s2) := by
  unfold join
  rw [copyLoop_eq, ok_bind, copyLoop_eq]; rfl

theorem compare_le (a b : Int) : compare a b ≤ 0 ↔ a ≤ b := by
  unfold compare
  split
  · simp; omega
  · split
    · simp; omega
    · simp; omega

/-- The values that `intersect` reports from the remaining elements, given the element before and the value reported last. -/
def found (prev : Int) (last : Option Int) : List Int → List Int
  | [] => []
  | x :: xs => if x = prev ∧ last ≠ some x then x :: found x (some x) xs else found x last xs

theorem count_loop {u pre : List Int} {prev : Int} (rest : List Int) {last : Option Int} (hu : u = pre ++ prev :: rest) (card : Nat)
    (tmp : Option Nat) (ht : (tmp = none ∧ last = none) ∨ ∃ t x, tmp = some t ∧ last = some x ∧ u[t]? = some x) :
    countLoop u u.length (pre.length + 1) card tmp = .ok (card + (found prev last rest).length) := by
  induction rest generalizing pre prev last card tmp with
  | nil =>
    unfold countLoop
    rw [if_neg (by rw [hu]; simp)]; rfl
  | cons x xs ih =>
    have hx : u[pre.length + 1]? = some x := by rw [hu, List.getElem?_append_right (by omega)]; simp
    have hp : u[pre.length]? = some prev := by rw [hu, List.getElem?_append_right (by omega)]; simp
    have hu' : u = (pre ++ [prev]) ++ x :: xs := by rw [hu]; simp
    have hlen : (pre ++ [prev]).length = pre.length + 1 := by simp
    have htw : twin u (pre.length + 1) = .ok (decide (x = prev)) := by
      unfold twin; rw [atC_ok hx, ok_bind, Nat.add_sub_cancel, atC_ok hp, ok_bind]; rfl
    have hlt := (List.getElem?_eq_some_iff.1 hx).1
    unfold countLoop found
    rw [if_pos hlt, htw, ok_bind]
    by_cases he : x = prev
    · rw [if_pos (show decide (x = prev) = true by simpa using he)]
      rcases ht with ⟨rfl, rfl⟩ | ⟨t, y, rfl, rfl, hy⟩
      · rw [if_pos ⟨he, by simp⟩]
        have := ih (last := some x) hu' (card + 1) (some (pre.length + 1)) (Or.inr ⟨_, _, rfl, rfl, hx⟩)
        rw [hlen] at this
        simp only [pure_bind, if_true]
        rw [this, List.length_cons]; congr 1; omega
      · simp only [atC_ok hx, atC_ok hy, ok_bind]
        by_cases hxy : x = y
        · subst hxy
          rw [if_neg (by simp)]
          have := ih (last := some x) hu' card (some t) (Or.inr ⟨_, _, rfl, rfl, hy⟩)
          rw [hlen] at this
          simpa using this
        · rw [if_pos ⟨he, by simpa using fun e => hxy e.symm⟩]
          have := ih (last := some x) hu' (card + 1) (some (pre.length + 1)) (Or.inr ⟨_, _, rfl, rfl, hx⟩)
          rw [hlen] at this
          simp only [hxy, not_false_eq_true, decide_true, pure_bind, if_true, ne_eq]
          rw [this, List.length_cons]; congr 1; omega
    · rw [if_neg (show ¬ decide (x = prev) = true by simpa using he), if_neg (fun h => he h.1)]
      have := ih (last := last) hu' card tmp ht
      rw [hlen] at this
      simpa using this

theorem fill_loop {u pre : List Int} {prev : Int} (rest : List Int) {res : List Int} (hu : u = pre ++ prev :: rest) {card : Nat}
    (hc : card = res.length + (found prev res.getLast? rest).length) :
    fillLoop u card (pre.length + 1) res = .ok (res ++ found prev res.getLast? rest) := by
  induction rest generalizing pre prev res with
  | nil =>
    unfold fillLoop
    rw [if_neg (by rw [hc]; simp [found])]; simp [found]
  | cons x xs ih =>
    unfold fillLoop
    by_cases hlt : res.length < card
    · have hx : u[pre.length + 1]? = some x := by rw [hu, List.getElem?_append_right (by omega)]; simp
      have hp : u[pre.length]? = some prev := by rw [hu, List.getElem?_append_right (by omega)]; simp
      have hu' : u = (pre ++ [prev]) ++ x :: xs := by rw [hu]; simp
      have hlen : (pre ++ [prev]).length = pre.length + 1 := by simp
      have htw : twin u (pre.length + 1) = .ok (decide (x = prev)) := by
        unfold twin; rw [atC_ok hx, ok_bind, Nat.add_sub_cancel, atC_ok hp, ok_bind]; rfl
      obtain ⟨hi, hxe⟩ := List.getElem?_eq_some_iff.1 hx
      rw [if_pos hlt, dif_pos hi, htw, ok_bind, hxe]
      have stay : fillLoop u card (pre.length + 1 + 1) res = .ok (res ++ found x res.getLast? xs) ∨
          card ≠ res.length + (found x res.getLast? xs).length := by
        by_cases hc' : card = res.length + (found x res.getLast? xs).length
        · left; have := ih hu' hc'; rwa [hlen] at this
        · exact Or.inr hc'
      have take : card = (res ++ [x]).length + (found x (res ++ [x]).getLast? xs).length →
          fillLoop u card (pre.length + 1 + 1) (res ++ [x]) = .ok (res ++ (x :: found x (some x) xs)) := by
        intro hc'
        have := ih hu' hc'
        rw [hlen] at this
        rw [this, List.getLast?_append, List.append_assoc]; rfl
      by_cases he : x = prev
      · rw [if_pos (show decide (x = prev) = true by simpa using he)]
        by_cases hr : res.length = 0
        · have hr' : res = [] := List.length_eq_zero_iff.1 hr
          have hf : found prev res.getLast? (x :: xs) = x :: found x (some x) xs := by
            rw [found, if_pos ⟨he, by rw [hr']; simp⟩]
          rw [hf] at hc ⊢
          simp only [hr, if_true, pure_bind]
          exact take (by rw [hc]; simp; omega)
        · have hg : res[res.length - 1]? = res.getLast? := List.getLast?_eq_getElem?.symm
          have hne : res ≠ [] := fun e => hr (by rw [e]; rfl)
          have hl : res.getLast? = some (res.getLast hne) := List.getLast?_eq_some_getLast hne
          rw [hl] at hg
          rw [if_neg hr, atC_ok hg, ok_bind]
          by_cases hxy : x = res.getLast hne
          · have hf : found prev res.getLast? (x :: xs) = found x res.getLast? xs := by
              rw [found, if_neg]; rintro ⟨_, h⟩; rw [hl] at h; exact h (by rw [hxy])
            rw [hf] at hc ⊢
            rcases stay with h | h
            · simpa [hxy.symm] using h
            · exact absurd hc h
          · have hf : found prev res.getLast? (x :: xs) = x :: found x (some x) xs := by
              rw [found, if_pos ⟨he, by rw [hl]; simpa using fun e => hxy e.symm⟩]
            rw [hf] at hc ⊢
            simp only [hxy, ne_eq, not_false_eq_true, decide_true, pure_bind, if_true]
            exact take (by rw [hc]; simp; omega)
      · have hf : found prev res.getLast? (x :: xs) = found x res.getLast? xs := by
          rw [found, if_neg (fun h => he h.1)]
        rw [hf] at hc ⊢
        rw [if_neg (show ¬ decide (x = prev) = true by simpa using he)]
        rcases stay with h | h
        · simpa using h
        · exact absurd hc h
    · rw [if_neg hlt]
      have : found prev res.getLast? (x :: xs) = [] := List.length_eq_zero_iff.1 (by omega)
      rw [this, List.append_nil]

theorem mem_found {prev : Int} (rest : List Int) {last : Option Int} (hs : (prev :: rest).Pairwise (· ≤ ·))
    (hl : ∀ y, last = some y → y ≤ prev) (y : Int) :
    y ∈ found prev last rest ↔ 2 ≤ (prev :: rest).count y ∧ last ≠ some y := by
  induction rest generalizing prev last with
  | nil =>
    simp only [found, List.not_mem_nil, false_iff, not_and]
    intro h
    rw [List.count_singleton] at h
    split at h <;> omega
  | cons x xs ih =>
    have hs' := (List.pairwise_cons.1 hs).2
    have hle : prev ≤ x := (List.pairwise_cons.1 hs).1 x List.mem_cons_self
    have hmem : ∀ z ∈ x :: xs, prev ≤ z := (List.pairwise_cons.1 hs).1
    have hge : ∀ z ∈ x :: xs, x ≤ z := fun z hz => by
      rcases List.mem_cons.1 hz with rfl | hz
      · exact le_rfl
      · exact (List.pairwise_cons.1 hs').1 z hz
    unfold found
    by_cases he : x = prev
    · subst he
      by_cases hlx : last = some x
      · rw [if_neg (fun h => h.2 hlx), ih hs' hl, hlx]
        by_cases hy : y = x
        · subst hy; simp
        · rw [List.count_cons_of_ne (Ne.symm hy) (l := x :: xs)]
      · rw [if_pos ⟨rfl, hlx⟩, List.mem_cons, ih hs' (fun z hz => le_of_eq (Option.some.inj hz).symm)]
        by_cases hy : y = x
        · subst hy; simp [hlx]
        · rw [List.count_cons_of_ne (Ne.symm hy) (l := x :: xs)]
          constructor
          · rintro (h | ⟨h, -⟩)
            · exact absurd h hy
            · refine ⟨h, fun hlast => ?_⟩
              have h1 := hl y hlast
              have h2 : y ∈ x :: xs := List.count_pos_iff.1 (by omega)
              have := hge y h2
              omega
          · rintro ⟨h, -⟩
            exact Or.inr ⟨h, by simpa using fun e => hy e.symm⟩
    · rw [if_neg (fun h => he h.1), ih hs' (fun z hz => (hl z hz).trans hle)]
      by_cases hy : y = prev
      · subst hy
        have hnot : y ∉ x :: xs := fun h => by have := hge y h; omega
        rw [List.count_cons_self, List.count_eq_zero.2 hnot]; simp
      · rw [List.count_cons_of_ne (Ne.symm hy) (l := x :: xs)]

theorem found_ascending {prev : Int} (rest : List Int) {last : Option Int} (hs : (prev :: rest).Pairwise (· ≤ ·))
    (hl : ∀ y, last = some y → y ≤ prev) : Ascending (found prev last rest) := by
  induction rest generalizing prev last with
  | nil => exact List.Pairwise.nil
  | cons x xs ih =>
    have hs' := (List.pairwise_cons.1 hs).2
    have hle : prev ≤ x := (List.pairwise_cons.1 hs).1 x List.mem_cons_self
    have hge : ∀ z ∈ x :: xs, x ≤ z := fun z hz => by
      rcases List.mem_cons.1 hz with rfl | hz
      · exact le_rfl
      · exact (List.pairwise_cons.1 hs').1 z hz
    unfold found
    split
    · refine List.pairwise_cons.2 ⟨fun z hz => ?_, ih hs' (fun z hz => le_of_eq (Option.some.inj hz).symm)⟩
      obtain ⟨h1, h2⟩ := (mem_found xs hs' (fun z hz => le_of_eq (Option.some.inj hz).symm) z).1 hz
      have := hge z (List.count_pos_iff.1 (by omega))
      have hne : x ≠ z := fun e => h2 (by rw [e])
      omega
    · exact ih hs' (fun z hz => (hl z hz).trans hle)

/-- What `intersect` does for arbitrary arrays: the values that occur at least twice in both arrays together. -/
theorem intersect_spec {qsort : (Int → Int → Int) → List Int → List Int} (hq : Sorts qsort) (s1 s2 : List Int) :
    ∃ r, intersect qsort s1 s1.length s2 s2.length = .ok r ∧ Ascending r ∧ ∀ x, x ∈ r ↔ 2 ≤ (s1 ++ s2).count x := by
  obtain ⟨hperm, hsort⟩ := hq compare (s1 ++ s2) (fun a b c h1 h2 => by rw [compare_le] at *; omega)
    (fun a b => by rw [compare_le, compare_le]; omega)
  simp only [compare_le] at hsort
  have hlen : (qsort compare (s1 ++ s2)).length = s1.length + s2.length := by rw [hperm.length_eq, List.length_append]
  unfold intersect
  rw [join_eq, ok_bind]
  simp only []
  rw [← hlen]
  cases hu : qsort compare (s1 ++ s2) with
  | nil =>
    rw [hu] at hperm
    have h0 : s1 ++ s2 = [] := hperm.symm.eq_nil
    refine ⟨[], ?_, List.Pairwise.nil, fun x => by rw [h0]; simp⟩
    unfold countLoop
    rw [if_neg (by simp), ok_bind]
    unfold fillLoop
    rw [if_neg (by simp)]
  | cons a l =>
    rw [hu] at hperm hsort
    have hc := count_loop (u := a :: l) (pre := []) (prev := a) l (last := none) rfl 0 none (Or.inl ⟨rfl, rfl⟩)
    have hf := fill_loop (u := a :: l) (pre := []) (prev := a) l (res := []) rfl
      (card := 0 + (found a none l).length) rfl
    rw [List.length_nil, Nat.zero_add] at hc hf
    refine ⟨_, (by rw [hc, ok_bind, Nat.zero_add]; exact hf), ?_, fun x => ?_⟩
    · exact found_ascending l hsort (last := none) (fun _ h => nomatch h)
    refine (mem_found l hsort (last := none) (fun _ h => nomatch h) x).trans ?_
    rw [hperm.count_eq]; simp

/-! ## `std::set` -/

theorem mem_setInsert (x y : Int) (l : List Int) : y ∈ setInsert x l ↔ y = x ∨ y ∈ l := by
  induction l with
  | nil => simp [setInsert]
  | cons a l ih =>
    unfold setInsert
    split
    · simp
    · split
      · rename_i h; subst h; simp
      · simp only [List.mem_cons, ih]; tauto

theorem setInsert_ascending (x : Int) {l : List Int} (h : Ascending l) : Ascending (setInsert x l) := by
  induction l with
  | nil => exact List.pairwise_singleton _ _
  | cons a l ih =>
    obtain ⟨h1, h2⟩ := List.pairwise_cons.1 h
    unfold setInsert
    split
    · rename_i hx
      refine List.pairwise_cons.2 ⟨fun z hz => ?_, h⟩
      rcases List.mem_cons.1 hz with rfl | hz
      · exact hx
      · exact hx.trans (h1 z hz)
    · split
      · exact h
      · refine List.pairwise_cons.2 ⟨fun z hz => ?_, ih h2⟩
        rcases (mem_setInsert x z l).1 hz with rfl | hz
        · omega
        · exact h1 z hz

theorem Ascending.nodup {l : List Int} (h : Ascending l) : l.Nodup := h.imp (fun h => ne_of_lt h)

theorem ascending_ext {l₁ l₂ : List Int} (h1 : Ascending l₁) (h2 : Ascending l₂) (h : ∀ x, x ∈ l₁ ↔ x ∈ l₂) : l₁ = l₂ :=
  ((List.perm_ext_iff_of_nodup h1.nodup h2.nodup).2 h).eq_of_pairwise (fun a b _ _ h h' => by omega) h1 h2

theorem insert_loop (int1 int2 : List Int) (n i : Nat) (h1 : n ≤ int1.length) (h2 : n ≤ int2.length) {s1 s2 : List Int}
    (a1 : Ascending s1) (a2 : Ascending s2) :
    ∃ t1 t2, insertLoop int1 int2 n i s1 s2 = .ok (t1, t2) ∧ Ascending t1 ∧ Ascending t2 ∧
      (∀ x, x ∈ t1 ↔ x ∈ s1 ∨ x ∈ (int1.take n).drop i) ∧ (∀ x, x ∈ t2 ↔ x ∈ s2 ∨ x ∈ (int2.take n).drop i) := by
  unfold insertLoop
  by_cases h : i < n
  · rw [if_pos h, atC_ok (List.getElem?_eq_getElem (by omega : i < int1.length)), ok_bind,
      atC_ok (List.getElem?_eq_getElem (by omega : i < int2.length)), ok_bind]
    obtain ⟨t1, t2, e, b1, b2, m1, m2⟩ := insert_loop int1 int2 n (i + 1) h1 h2 (setInsert_ascending int1[i] a1) (setInsert_ascending int2[i] a2)
    refine ⟨t1, t2, e, b1, b2, fun x => ?_, fun x => ?_⟩
    · rw [m1, mem_setInsert, List.drop_eq_getElem_cons (i := i) (l := int1.take n) (by rw [List.length_take]; omega), List.mem_cons,
        List.getElem_take]; tauto
    · rw [m2, mem_setInsert, List.drop_eq_getElem_cons (i := i) (l := int2.take n) (by rw [List.length_take]; omega), List.mem_cons,
        List.getElem_take]; tauto
  · rw [if_neg h]
    refine ⟨s1, s2, rfl, a1, a2, fun x => ?_, fun x => ?_⟩
    · rw [List.drop_eq_nil_of_le (by rw [List.length_take]; omega)]; simp
    · rw [List.drop_eq_nil_of_le (by rw [List.length_take]; omega)]; simp
termination_by n - i

theorem check_spec (a b : List Int) :
    ∃ v, check a a.length b = .ok v ∧ (v = true ↔ a.length = b.length ∧ ∀ x, x ∈ a ↔ x ∈ b) := by
  unfold check
  by_cases h : a.length = b.length
  · rw [if_neg (not_not.2 h)]
    obtain ⟨t1, t2, e, b1, b2, m1, m2⟩ := insert_loop a b a.length 0 le_rfl (by omega) List.Pairwise.nil List.Pairwise.nil
    rw [e, ok_bind]
    refine ⟨_, rfl, ?_⟩
    simp only [decide_eq_true_eq]
    rw [List.drop_zero, List.take_length] at m1
    rw [List.drop_zero, h, List.take_length] at m2
    constructor
    · rintro rfl
      refine ⟨h, fun x => ?_⟩
      have h1 := m1 x; have h2 := m2 x
      simp only [List.not_mem_nil, false_or] at h1 h2
      rw [← h1, ← h2]
    · rintro ⟨-, hx⟩
      refine ascending_ext b1 b2 fun x => ?_
      rw [m1, m2]; simp [hx]
  · rw [if_pos h]
    exact ⟨false, rfl, by simp [h]⟩

theorem setInsert_length (x : Int) (l : List Int) : (setInsert x l).length ≤ l.length + 1 := by
  induction l with
  | nil => simp [setInsert]
  | cons a l ih =>
    unfold setInsert
    split
    · simp
    · split
      · simp
      · simp only [List.length_cons]; omega

/-- An ascending list has as many elements as distinct ones. -/
theorem ascending_card {l : List Int} (h : Ascending l) : l.toFinset.card = l.length := List.toFinset_card_of_nodup h.nodup

theorem setInsert_toFinset (x : Int) (l : List Int) : (setInsert x l).toFinset = insert x l.toFinset := by
  ext y; simp [mem_setInsert]

theorem draw_loop (n : Nat) (draws : List Int) {set : List Int} (ha : Ascending set) (hlt : set.length < n) :
    (∀ s rest, drawLoop n set draws = some (s, rest) → Ascending s ∧ s.length = n ∧
      ∃ used, draws = used ++ rest ∧ (∀ x, x ∈ s ↔ x ∈ set ∨ x ∈ used) ∧ (set ++ used.dropLast).toFinset.card < n) ∧
    (drawLoop n set draws = none ↔ (set ++ draws).toFinset.card < n) := by
  induction draws generalizing set with
  | nil =>
    refine ⟨fun _ _ h => (nomatch h), ?_⟩
    rw [List.append_nil, ascending_card ha]
    exact ⟨fun _ => hlt, fun _ => rfl⟩
  | cons x draws ih =>
    unfold drawLoop
    have hlen := setInsert_length x set
    have ha' := setInsert_ascending x ha
    have hfin : ∀ l : List Int, (set ++ x :: l).toFinset = (setInsert x set ++ l).toFinset := fun l => by
      ext y; simp [mem_setInsert]; tauto
    simp only []
    by_cases h : (setInsert x set).length < n
    · rw [if_pos h]
      obtain ⟨i1, i2⟩ := ih ha' h
      refine ⟨fun s rest hs => ?_, by rw [i2, hfin]⟩
      obtain ⟨b1, b2, used, b3, b4, b5⟩ := i1 s rest hs
      refine ⟨b1, b2, x :: used, by rw [b3]; rfl, fun y => ?_, ?_⟩
      · rw [b4, mem_setInsert, List.mem_cons]; tauto
      · cases used with
        | nil => simpa [ascending_card ha] using hlt
        | cons z used => rw [List.dropLast_cons_of_ne_nil (List.cons_ne_nil _ _), hfin]; exact b5
    · rw [if_neg h]
      constructor
      · intro s rest hs
        obtain ⟨rfl, rfl⟩ := Prod.mk.inj (Option.some.inj hs)
        refine ⟨ha', by omega, [x], rfl, fun y => ?_, ?_⟩
        · rw [mem_setInsert]; simp; tauto
        · simpa [ascending_card ha] using hlt
      · refine ⟨fun h => (nomatch h), fun hc => ?_⟩
        exfalso
        have h1 : (setInsert x set).toFinset ⊆ (set ++ x :: draws).toFinset := by
          rw [hfin]; intro y; simp; tauto
        have := Finset.card_le_card h1
        rw [ascending_card ha'] at this
        omega

end EoPsi.Simul
