import Verif.Spec.Poly

/-! # What a user should see of a batch of polynomials after a history of calls -/

namespace EoPsi

variable {p : Nat} [Fact p.Prime]

/-- The public methods of a batch that do something. -/
inductive PolyCall (p : Nat) [Fact p.Prime] where
  | interpolate (x : List (ZMod p)) (ys : List (List (ZMod p))) (n : Nat) (monicise : Bool)
  | makeMonic
  | factorise (F : Factoring p)
  | find
  | oneShot (F : Factoring p) (x : List (ZMod p)) (ys : List (List (ZMod p))) (n : Nat)

/-- One call. -/
noncomputable def PolyCall.run (o : ZZpPolynomials p) : PolyCall p → C (ZZpPolynomials p)
  | .interpolate x ys n m => o.interpolate x ys n m
  | .makeMonic => o.makeMonic
  | .factorise F => o.factorise F
  | .find => o.findIntersection
  | .oneShot F x ys n => o.oneShot F x ys n

/-- A history of calls on one object. -/
noncomputable def ZZpPolynomials.calls (o : ZZpPolynomials p) : List (PolyCall p) → C (ZZpPolynomials p)
  | [] => .ok o
  | c :: cs => do
    let o' ← c.run o
    o'.calls cs

/-- What matters to a user: the current polynomials, the polynomials factorised last, the result last returned. -/
structure PolyView (p : Nat) where
  polys : List (ZpX p)
  fact : List (ZpX p)
  shown : Nat → Prop

/-- `fs` are the polynomials through the first `n` columns of values at different points, scaled to leading coefficient 1 if asked for. -/
def FitsAll (x : List (ZMod p)) (ys : List (List (ZMod p))) (n : Nat) (monicise : Bool) (fs : List (ZpX p)) : Prop :=
  fs.length = n ∧ ∀ i, i < n → ∃ y f, ys[i]? = some y ∧ x.Nodup ∧ Interpolates x y f ∧ fs[i]? = some (if monicise then makeMonic f else f)

/-- `v` is reported for these polynomials. -/
def Shows (pad : Nat) (fs : List (ZpX p)) (v : Nat) : Prop := ∃ f ∈ fs, ∃ r : ZMod p, f.IsRoot r ∧ Unpads pad r v

/-- The effect of one successful call. -/
inductive PolyStep (pad : Nat) : PolyView p → PolyCall p → PolyView p → Prop
  | interpolate {v x ys n m fs} (h : FitsAll x ys n m fs) : PolyStep pad v (.interpolate x ys n m) ⟨fs, v.fact, v.shown⟩
  /-- every polynomial except zero is scaled to leading coefficient 1 -/
  | makeMonic {v} : PolyStep pad v .makeMonic ⟨v.polys.map makeMonic, v.fact, v.shown⟩
  | factorise {v F} (h : ∀ f ∈ v.polys, f.Monic) : PolyStep pad v (.factorise F) ⟨v.polys, v.polys, v.shown⟩
  /-- nothing factorised yet: an empty result -/
  | nothing {v} (h : v.fact = []) : PolyStep pad v .find ⟨v.polys, v.fact, fun _ => False⟩
  /-- the result belongs to the polynomials factorised last, as many as there are polynomials now -/
  | find {v} (h : v.polys.length ≤ v.fact.length) : PolyStep pad v .find ⟨v.polys, v.fact, Shows pad (v.fact.take v.polys.length)⟩
  /-- the result belongs to the new polynomials; if their number is the same as before, old factors beyond them are kept -/
  | oneShot {v F x ys n fs} (h : FitsAll x ys n true fs) (hm : ∀ f ∈ fs, f.Monic) :
      PolyStep pad v (.oneShot F x ys n) ⟨fs, if v.polys.length = n then fs ++ v.fact.drop n else fs, Shows pad fs⟩

/-- The effect of a history. -/
inductive PolyHistory (pad : Nat) : PolyView p → List (PolyCall p) → PolyView p → Prop
  | nil {v} : PolyHistory pad v [] v
  | cons {v v' v'' c cs} (h : PolyStep pad v c v') (t : PolyHistory pad v' cs v'') : PolyHistory pad v (c :: cs) v''

/-- A new object. -/
def PolyView.new : PolyView p := ⟨[], [], fun _ => False⟩

end EoPsi
