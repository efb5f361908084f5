import Verif.Model.Cli

/-! # What the options on a command line are -/

namespace EoPsi.Cli

/-- The last value given for an option. -/
def given (c : Char) (evs : List Event) : Option Str := ((evs.filter (fun e => e.1 = c)).getLast?).map (·.2)

/-- The last number given for an option, or a default. -/
def num (c : Char) (dflt : Nat) (evs : List Event) : Nat := ((given c evs).map (fun a => (atol a).toNat)).getD dflt

/-- The same for options whose value is not checked: a negative number becomes a very large one. -/
def wrapped (c : Char) (dflt : Nat) (evs : List Event) : Nat := ((given c evs).map (fun a => (atol a % 2 ^ 64).toNat)).getD dflt

/-- The last text given for an option, or a default. -/
def text (c : Char) (dflt : Str) (evs : List Event) : Str := (given c evs).getD dflt

/-- Options whose value must be positive, must not be negative, or may be anything. -/
def Accepts (positive nonneg free : List Char) (e : Event) : Prop :=
  (e.1 ∈ positive ∧ 0 < atol e.2) ∨ (e.1 ∈ nonneg ∧ 0 ≤ atol e.2) ∨ e.1 ∈ free

/-- The name given to `-a` is not that of the algorithm that is announced but missing. -/
def Implemented (e : Event) : Prop := ¬ (e.1 = 'a' ∧ e.2 = "SHA512".toList)

/-- The algorithm named last, names that are not known being ignored. -/
def namedAlg (evs : List Event) : Option Alg :=
  ((evs.filter (fun e => e.1 = 'a')).filterMap (fun e =>
    if e.2 = "MH3".toList then some Alg.murmur else if e.2 = "SHA1".toList then some Alg.sha1 else if e.2 = "SHA256".toList then some Alg.sha256 else none)).getLast?

/-- The programs. -/
inductive Tool | eopsisimul | hbtest | bptest | polyfact | zzrndgen | cherpars

def Tool.opts : Tool → Str
  | eopsisimul => Sim.opts
  | hbtest => Hb.opts
  | bptest => Bp.opts
  | polyfact => Pf.opts
  | zzrndgen => Rg.opts
  | cherpars => Ch.opts

/-- The options a program accepts. -/
def Tool.accepts (atof : Str → Real) : Tool → Event → Prop
  | eopsisimul, e => Accepts ['b', 'k', 'l', 'n', 'p'] ['j', 'r'] [] e
  | hbtest, e => Accepts [] [] ['a', 'i', 'k', 'l'] e ∧ Implemented e
  | bptest, e => Accepts ['k', 'l', 'p'] ['j'] ['a', 'i'] e ∧ Implemented e
  | polyfact, e => Accepts ['b', 'n'] ['d'] ['q'] e
  | zzrndgen, e => Accepts ['b'] [] ['n', 'o'] e
  | cherpars, e => Accepts ['l', 'n'] [] ['p', 'q'] e ∧ (e.1 = 'p' → atof e.2 < -(1 / 10000))

/-- The program ends in a fault while it looks at its options (and, for `cherpars`, also later). -/
def Tool.ends (atof : Str → Real) : Tool → List Str → Fault → Prop
  | eopsisimul, args, f => Sim.run args = .error f
  | hbtest, args, f => Hb.run args = .error f
  | bptest, args, f => Bp.run args = .error f
  | polyfact, args, f => Pf.run args = .error f
  | zzrndgen, args, f => Rg.run args = .error f
  | cherpars, args, f => Ch.run atof args = .error f

/-- How a program ends at an option it does not accept, when it has been given `argc - 1` words. -/
def Tool.refusal (argc : Nat) (e : Event) : Tool → Fault
  | hbtest => if e.1 = '?' then (if argc < 63 then .ub .outOfBounds else if argc = 63 then .ub .nullDeref else .exit 1) else if e.1 = 'a' then .exit 2 else .exit 1
  | bptest => if e.1 = '?' then (if argc < 63 then .ub .outOfBounds else if argc = 63 then .ub .nullDeref else .exit 1) else if e.1 = 'a' then .exit 2 else .exit 1
  | _ => if e.1 = '?' then (if argc < 63 then .ub .outOfBounds else if argc = 63 then .ub .nullDeref else .exit 1) else .exit 1

end EoPsi.Cli
