import Verif.Spec.Crowd

/-! # Helpers that serve several querying clients -/

namespace EoPsi

variable {p : Nat} [Fact p.Prime]

/-- Two sessions with the same helper, who sets and outsources her data once: the querying clients are different, and those of one session use message objects of their own. -/
structure Plan.SameHelper (σ τ : Plan p) : Prop where
  alice : σ.alice = τ.alice
  calls : σ.aliceCalls = τ.aliceCalls
  bobs : σ.bob ≠ τ.bob
  messages : ¬ τ.Uses σ.kB ∧ ¬ τ.Uses σ.k

/-- The states that can be reached from `w` while sessions go on at the same time, with calls of others that are foreign to all of them.  `helper i` is the helper of session `i`;
`as g` are the calls that helper `g` still has to make (once for all of the sessions) and `bs i` those of the querying client of session `i`, who asks when the helper has
outsourced the data. -/
inductive Served (D : Digest) (F : Factoring p) (hw : Nat) {ι γ : Type} [DecidableEq ι] [DecidableEq γ] (σ : ι → Plan p) (helper : ι → γ) (start : γ → List (Call p)) (w : World p) :
    (γ → List (Call p)) → (ι → List (Call p)) → World p → Prop
  | start : Served D F hw σ helper start w start (fun i => (σ i).bobCalls) w
  | alice {w1 w2 : World p} {c : Call p} {as : γ → List (Call p)} {bs : ι → List (Call p)} {cs : List (Call p)} (i : ι) (before : Served D F hw σ helper start w as bs w1)
      (next : as (helper i) = c :: cs) (supplied : w1.Supplied c) (step : w1.step D F hw c = .ok w2) : Served D F hw σ helper start w (Function.update as (helper i) cs) bs w2
  | bob {w1 w2 : World p} {c : Call p} {as : γ → List (Call p)} {bs : ι → List (Call p)} {cs : List (Call p)} (i : ι) (before : Served D F hw σ helper start w as bs w1)
      (next : bs i = c :: cs) (last : cs = [] → as (helper i) = []) (supplied : w1.Supplied c) (step : w1.step D F hw c = .ok w2) :
      Served D F hw σ helper start w as (Function.update bs i cs) w2
  | foreign {w1 w2 : World p} {c : Call p} {as : γ → List (Call p)} {bs : ι → List (Call p)} (before : Served D F hw σ helper start w as bs w1)
      (may : ∀ i, (σ i).Foreign w1 c) (step : w1.step D F hw c = .ok w2) : Served D F hw σ helper start w as bs w2

/-- The sessions are prepared in `w`; those with the same helper have nothing else in common, those with different helpers nothing but perhaps the cloud. -/
structure Serving (D : Digest) {ι γ : Type} (σ : ι → Plan p) (helper : ι → γ) (start : γ → List (Call p)) (w : World p) : Prop where
  ready : ∀ i, (σ i).Ready D w
  apart : ∀ i, (σ i).Apart w
  calls : ∀ i, start (helper i) = (σ i).aliceCalls
  same : ∀ i j, i ≠ j → helper i = helper j → (σ i).SameHelper (σ j)
  separate : ∀ i j, helper i ≠ helper j → (σ i).Separate (σ j)

end EoPsi
