import Verif.Spec.Queries
import Verif.Props.Ideal

/-! # C109: many queries teach only what is common -/

set_option linter.unusedSectionVars false

namespace EoPsi

variable {p : Nat} [Fact p.Prime] {L D H : Nat}

theorem bind_congr_support {α β : Type} (μ : PMF α) {f g : α → PMF β} (h : ∀ a ∈ μ.support, f a = g a) : μ.bind f = μ.bind g := by
  refine PMF.ext fun b => ?_
  rw [PMF.bind_apply, PMF.bind_apply]
  refine tsum_congr fun a => ?_
  by_cases ha : μ a = 0
  · rw [ha, zero_mul, zero_mul]
  · rw [h a ((PMF.mem_support_iff _ _).2 ha)]

/-- **C109.**  However colluding clients choose their tables, after all they have seen: two tables of the helper that have the same elements in common with each of the tables they ask with are not
distinguished by any number of queries. -/
theorem C109_adaptive (x : Fin D → ZMod p) (choose : List (BobView p L D) → Asking p L D) (zA zA' : Fin L → Fin D → ZMod p) (bA bA' : Fin L → List (ZMod p))
    (hA : ∀ j, (bA j).length = H) (hA' : ∀ j, (bA' j).length = H) (n : Nat)
    (h : ∀ m < n, ∀ past ∈ (queries H x choose zA bA m).support, (∀ j, ((choose past).1 j).length = H) ∧ SameCommon bA bA' (choose past).1) :
    queries H x choose zA bA n = queries H x choose zA' bA' n := by
  induction n with
  | zero => rfl
  | succ n ih =>
    rw [queries, queries, ← ih fun m hm => h m (by omega)]
    refine bind_congr_support _ fun past hp => ?_
    obtain ⟨h1, h2⟩ := h n (by omega) past hp
    have := C79_bob_learns_only_common x zA (choose past).2 zA' (choose past).2 bA bA' (choose past).1 hA hA' h1 h2
    have e := congrArg (fun μ : PMF (BobView p L D) => μ.map (fun v => past ++ [v])) this
    simp only [PMF.map_comp] at e
    exact e

/-- **C109 (one table).**  If all ask with the same table, any number of queries teaches what one query teaches: what is in common. -/
theorem C109_same_table (x : Fin D → ZMod p) (zA zA' zB : Fin L → Fin D → ZMod p) (bA bA' bB : Fin L → List (ZMod p))
    (hA : ∀ j, (bA j).length = H) (hA' : ∀ j, (bA' j).length = H) (hB : ∀ j, (bB j).length = H) (hc : SameCommon bA bA' bB) (n : Nat) :
    queries H x (fun _ => (bB, zB)) zA bA n = queries H x (fun _ => (bB, zB)) zA' bA' n :=
  C109_adaptive x _ zA zA' bA bA' hA hA' n fun _ _ _ _ => ⟨hB, hc⟩

/-- The second table is chosen after the first answer; the helper has 2 or 5, the clients ask with 4 or 7. -/
example (choose : List (BobView 13 1 3) → Asking 13 1 3) (h : ∀ past, (choose past).1 = (fun _ => [4]) ∨ (choose past).1 = (fun _ => [7])) (x : Fin 3 → ZMod 13)
    (zA zA' : Fin 1 → Fin 3 → ZMod 13) : queries 1 x choose zA (fun _ => [2]) 2 = queries 1 x choose zA' (fun _ => [5]) 2 := by
  have four : SameCommon (fun _ : Fin 1 => [(2 : ZMod 13)]) (fun _ => [5]) (fun _ => [4]) := by
    unfold SameCommon; decide
  have seven : SameCommon (fun _ : Fin 1 => [(2 : ZMod 13)]) (fun _ => [5]) (fun _ => [7]) := by
    unfold SameCommon; decide
  refine C109_adaptive (H := 1) x choose zA zA' (fun _ => [2]) (fun _ => [5]) (fun _ => rfl) (fun _ => rfl) 2 fun m _ past _ => ?_
  rcases h past with e | e
  · rw [e]; exact ⟨fun _ => rfl, four⟩
  · rw [e]; exact ⟨fun _ => rfl, seven⟩

/-- A query with the element 2 does tell the difference: the two halves are equal at the point 2 with certainty if the helper has 2. -/
example : (∀ past ∈ (queries 1 ![2] (fun _ => ((fun _ => [2]), 0)) 0 (fun _ => [2]) 1 : PMF (List (BobView 13 1 1))).support, ∀ v ∈ past, v.1 0 0 = v.2 0 0) ∧
    ∃ past ∈ (queries 1 ![2] (fun _ => ((fun _ => [2]), 0)) 0 (fun _ => [5]) 1 : PMF (List (BobView 13 1 1))).support, ∃ v ∈ past, v.1 0 0 ≠ v.2 0 0 := by
  constructor
  · intro past hp v hv
    rw [queries, queries, PMF.pure_bind, PMF.support_map] at hp
    obtain ⟨g, -, rfl⟩ := hp
    simp only [List.nil_append, List.mem_singleton] at hv
    subst hv
    simp [bobView, half, rootsPoly]
  · refine ⟨[bobView (0 : IdealKey 13 1 1 1) ![2] 0 0 (fun _ => [5]) (fun _ => [2])], ?_, _, List.mem_singleton.2 rfl, ?_⟩
    · rw [queries, queries, PMF.pure_bind, PMF.support_map]
      exact ⟨0, by simp, rfl⟩
    · simp [bobView, half, rootsPoly, monicOf]
      decide

end EoPsi
