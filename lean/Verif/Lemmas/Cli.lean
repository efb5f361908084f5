import Verif.Spec.Cli
import Verif.Props.Tools

set_option linter.unusedSectionVars false

namespace EoPsi.Cli

theorem atol_lt (s : Str) : atol s < 2 ^ 63 ∧ -2 ^ 63 ≤ atol s := by
  unfold atol
  simp only
  split <;> omega

theorem toSizeT_atol {s : Str} (h : 0 ≤ atol s) : toSizeT (atol s) = (atol s).toNat := by
  have := atol_lt s
  unfold toSizeT
  omega

theorem toUnsigned_atol {s : Str} (h : 0 ≤ atol s) : toUnsigned (atol s) = (atol s).toNat % 2 ^ 32 := by
  have := atol_lt s
  unfold toUnsigned
  omega

theorem atol_decimal {n : Nat} (hn : n < 2 ^ 63) (rest : Str) (hr : ∀ c, rest.head? = some c → NumFile.isDigit c = false) : atol (NumFile.decimal n ++ rest) = n := by
  obtain ⟨h1, h2, h3⟩ := NumFile.decimal_spec n
  have ht : (NumFile.decimal n ++ rest).takeWhile NumFile.isDigit = NumFile.decimal n := by
    rw [List.takeWhile_append_of_pos h2]
    cases rest with
    | nil => simp
    | cons c cs => rw [List.takeWhile_cons_of_neg (by simp [hr c rfl]), List.append_nil]
  obtain ⟨d, ds, hd⟩ := List.exists_cons_of_ne_nil h1
  have hdig := h2 d (by rw [hd]; exact List.mem_cons_self)
  have hd0 : (NumFile.decimal n ++ rest).dropWhile NumFile.isSpace = NumFile.decimal n ++ rest := by
    rw [hd, List.cons_append, List.dropWhile_cons_of_neg]
    intro hs
    unfold NumFile.isDigit at hdig
    unfold NumFile.isSpace at hs
    simp only [decide_eq_true_eq] at hdig hs
    omega
  unfold atol
  simp only [hd0]
  rw [hd, List.cons_append]
  have n1 : d ≠ '-' := by rintro rfl; exact absurd hdig (by decide)
  have n2 : d ≠ '+' := by rintro rfl; exact absurd hdig (by decide)
  rw [hd, List.cons_append] at ht
  split
  · rename_i h; exact absurd (List.cons.inj h).1 n1
  · rename_i h; exact absurd (List.cons.inj h).1 n2
  · rename_i t h1' h2'
    rw [ht, ← hd, h3]
    omega

section Fold

variable {σ : Type} {handle : σ → Event → C σ} {ok : Event → Prop} {upd : σ → Event → σ}

theorem fold_ok (h1 : ∀ s e, ok e → handle s e = .ok (upd s e)) (h2 : ∀ s e, ¬ ok e → ∃ f, handle s e = .error f) (evs : List Event) :
    ∀ s s', evs.foldlM handle s = .ok s' ↔ (∀ e ∈ evs, ok e) ∧ s' = evs.foldl upd s := by
  induction evs with
  | nil =>
    intro s s'
    simp only [List.foldlM_nil, List.foldl_nil, List.not_mem_nil, false_implies, implies_true, true_and]
    exact ⟨fun h => (Except.ok.inj h).symm, fun h => by rw [h]; rfl⟩
  | cons e evs ih =>
    intro s s'
    rw [List.foldlM_cons, List.foldl_cons]
    by_cases he : ok e
    · rw [h1 s e he, ok_bind, ih]
      simp [he]
    · obtain ⟨f, hf⟩ := h2 s e he
      rw [hf]
      refine ⟨fun h => absurd h (by simp [bind, Except.bind]), fun h => absurd (h.1 e List.mem_cons_self) he⟩

theorem fold_error (h1 : ∀ s e, ok e → handle s e = .ok (upd s e)) {pre post : List Event} {e : Event} {f : Fault} (hp : ∀ x ∈ pre, ok x)
    (hf : ∀ s, handle s e = .error f) (s : σ) : (pre ++ e :: post).foldlM handle s = .error f := by
  induction pre generalizing s with
  | nil => rw [List.nil_append, List.foldlM_cons, hf]; rfl
  | cons x pre ih =>
    rw [List.cons_append, List.foldlM_cons, h1 s x (hp x List.mem_cons_self), ok_bind]
    exact ih (fun y hy => hp y (List.mem_cons_of_mem _ hy)) _

/-- A field that only one option sets. -/
theorem fold_field {τ : Type} (proj : σ → τ) (c : Char) (g : Str → τ) (h : ∀ s e, proj (upd s e) = if e.1 = c then g e.2 else proj s) (evs : List Event) :
    ∀ s, proj (evs.foldl upd s) = ((given c evs).map g).getD (proj s) := by
  induction evs with
  | nil => intro s; rfl
  | cons e evs ih =>
    intro s
    rw [List.foldl_cons, ih, h]
    unfold given
    by_cases he : e.1 = c
    · rw [if_pos he, List.filter_cons_of_pos (by simpa using he)]
      cases hl : evs.filter (fun e => e.1 = c) with
      | nil => simp
      | cons a as => rw [List.getLast?_cons_cons]; simp [List.getLast?_cons]
    · rw [if_neg he, List.filter_cons_of_neg (by simpa using he)]

end Fold

theorem given_mem {c : Char} {evs : List Event} {a : Str} (h : given c evs = some a) : (c, a) ∈ evs := by
  unfold given at h
  obtain ⟨e, he, rfl⟩ := Option.map_eq_some_iff.1 h
  have := List.mem_of_getLast? he
  have := List.mem_filter.1 this
  have hc : e.1 = c := by simpa using this.2
  rw [← hc]
  exact this.1

end EoPsi.Cli
