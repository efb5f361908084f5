import Verif.Model.Tools
import Verif.Model.SimulMain

/-! # The command lines of the programs in `src/test`

What happens before the programs do their work: `getopt`, the checks of the values, the defaults.  `getopt` and `atol` are those of the GNU C library (library code, modelled by
its documentation): options may be clustered (`-qn5`), the value is the rest of the word or the next word, words that are not options are skipped, `--` ends the options, an unknown
option or a missing value is reported as `?`.  Messages are not modelled.  The words are lists of characters; `argc` is their number plus one for the name of the program. -/

namespace EoPsi.Cli

abbrev Str := List Char

/-- `atol`, with saturation as in `strtol` (GNU; the C standard leaves values out of range undefined). -/
def atol (s : Str) : Int :=
  let s := s.dropWhile NumFile.isSpace
  let number : Str → Nat := fun t => NumFile.value (t.takeWhile NumFile.isDigit)
  match s with
  | '-' :: t => max (-(number t : Int)) (-2 ^ 63)
  | '+' :: t => min (number t : Int) (2 ^ 63 - 1)
  | t => min (number t : Int) (2 ^ 63 - 1)

/-- Assignment of a `long` to a `size_t` and to an `unsigned int`. -/
def toSizeT (z : Int) : Nat := (z % 2 ^ 64).toNat
def toUnsigned (z : Int) : Nat := (z % 2 ^ 32).toNat

/-- Does the option string know the option, and does it take a value? -/
def lookup : Str → Char → Option Bool
  | [], _ => none
  | x :: ':' :: rest, c => if x = c then some true else lookup rest c
  | x :: rest, c => if x = c then some false else lookup rest c

/-- What one call of `getopt` gives: its result and `optarg`. -/
abbrev Event := Char × Str

/-- The options in one word (without the leading `-`), and the words that follow. -/
def cluster (opts : Str) : Str → List Str → List Event × List Str
  | [], rest => ([], rest)
  | c :: cs, rest =>
    match lookup opts c with
    | none => let r := cluster opts cs rest; (('?', []) :: r.1, r.2)
    | some false => let r := cluster opts cs rest; ((c, []) :: r.1, r.2)
    | some true =>
      if cs ≠ [] then ([(c, cs)], rest)
      else match rest with
        | [] => ([('?', [])], [])
        | a :: rest => ([(c, a)], rest)

theorem cluster_length (opts : Str) (w : Str) (rest : List Str) : (cluster opts w rest).2.length ≤ rest.length := by
  induction w with
  | nil => exact le_refl _
  | cons c cs ih =>
    unfold cluster
    split
    · exact ih
    · exact ih
    · split
      · exact le_refl _
      · split
        · exact Nat.zero_le _
        · exact Nat.le_succ _

/-- All the calls of `getopt` (until it returns -1). -/
def getopt (opts : Str) : List Str → List Event
  | [] => []
  | ('-' :: c :: cs) :: rest =>
    if c = '-' ∧ cs = [] then []
    else
      let r := cluster opts (c :: cs) rest
      r.1 ++ getopt opts r.2
  | _ :: rest => getopt opts rest
termination_by l => l.length
decreasing_by
  · have := cluster_length opts (c :: cs) rest
    simp only [List.length_cons]
    omega
  · simp

/-- The loop `while ((op = getopt(…)) != -1) switch (op)`, e.g. eopsisimul.cpp:221-286. -/
def parse {σ : Type} (opts : Str) (handle : Nat → σ → Event → C σ) (init : σ) (args : List Str) : C σ :=
  (getopt opts args).foldlM (handle (args.length + 1)) init

/-- `case '?'`: prints `argv[op]` where `op` is `'?'`, i.e. 63 (eopsisimul.cpp:279-280, bptest.cpp:135-136, cherpars.cpp:69-70, hbtest.cpp:82-83, polyfact.cpp:75-76,
zzrndgen.cpp:53-54); then the usage, `return 1`.  `argv` has `argc + 1` entries, the last one is a null pointer. -/
def badOption {σ : Type} (argc : Nat) : C σ :=
  if argc < 63 then .error (.ub .outOfBounds)
  else if argc = 63 then .error (.ub .nullDeref)
  else .error (.exit 1)

/-! ## eopsisimul -/

/-- eopsisimul.cpp:203-213 -/
structure Sim where
  b : Nat
  j : Nat
  k : Nat
  l : Nat
  n : Nat
  p : Nat
  r : Nat
  deriving DecidableEq

/-- eopsisimul.h, eopsisimul.cpp:203-213 -/
def Sim.default : Sim := ⟨32, 0, 10000, 30, 100000, 113, 1⟩

/-- eopsisimul.cpp:222-285 -/
def Sim.handle (argc : Nat) (s : Sim) : Event → C Sim
  | ('b', a) => if atol a ≤ 0 then .error (.exit 1) else .ok { s with b := toSizeT (atol a) }
  | ('j', a) => if atol a < 0 then .error (.exit 1) else .ok { s with j := toUnsigned (atol a) }
  | ('k', a) => if atol a ≤ 0 then .error (.exit 1) else .ok { s with k := toSizeT (atol a) }
  | ('l', a) => if atol a ≤ 0 then .error (.exit 1) else .ok { s with l := toSizeT (atol a) }
  | ('n', a) => if atol a ≤ 0 then .error (.exit 1) else .ok { s with n := toSizeT (atol a) }
  | ('p', a) => if atol a ≤ 0 then .error (.exit 1) else .ok { s with p := toSizeT (atol a) }
  | ('r', a) => if atol a < 0 then .error (.exit 1) else .ok { s with r := toSizeT (atol a) }
  | ('?', _) => badOption argc
  | _ => .error (.exit 1)

def Sim.opts : Str := "b:hj:k:l:n:p:r:".toList

/-- eopsisimul.cpp:219-297 -/
def Sim.run (args : List Str) : C Sim := do
  let s ← parse Sim.opts Sim.handle Sim.default args
  if s.r > s.n then .error (.exit 1)
  else if s.p < s.b then .error (.exit 1)
  else .ok s

/-- The options as parameters of the rest of the program (`Simul.main`). -/
def Sim.params (s : Sim) : Simul.Params := ⟨s.b, s.n, s.r, s.l, s.k⟩

/-! ## hbtest and bptest -/

/-- `hashAlgorithm` (hbtest.cpp:52-64, bptest.cpp:81-93). -/
inductive Alg | murmur | sha1 | sha256
  deriving DecidableEq

/-- `case 'a'`: hbtest.cpp:52-68, bptest.cpp:81-97. -/
def algorithm (a : Str) (old : Option Alg) : C (Option Alg) :=
  if a = "MH3".toList then .ok (some .murmur)
  else if a = "SHA1".toList then .ok (some .sha1)
  else if a = "SHA256".toList then .ok (some .sha256)
  else if a = "SHA512".toList then .error (.exit 2)
  else .ok old

/-- hbtest.cpp:36-40 -/
structure Hb where
  alg : Option Alg
  k : Nat
  l : Nat
  file : Str

def Hb.default : Hb := ⟨none, 10000, 140, []⟩

/-- hbtest.cpp:51-87 -/
def Hb.handle (argc : Nat) (s : Hb) : Event → C Hb
  | ('a', a) => do let g ← algorithm a s.alg; .ok { s with alg := g }
  | ('k', a) => .ok { s with k := toSizeT (atol a) }
  | ('l', a) => .ok { s with l := toSizeT (atol a) }
  | ('i', a) => .ok { s with file := a }
  | ('?', _) => badOption argc
  | _ => .error (.exit 1)

def Hb.opts : Str := "a:hi:k:l:".toList

/-- hbtest.cpp:48-107: the defaults for the algorithm and the file. -/
def Hb.run (args : List Str) : C (Alg × Nat × Nat × Str) := do
  let s ← parse Hb.opts Hb.handle Hb.default args
  .ok (s.alg.getD .murmur, s.k, s.l, if s.file = [] then "zz.dat".toList else s.file)

/-- hbtest.cpp:116-127: the first number of the file that has been opened is skipped here; `n / length` is computed before anything is put into the table. -/
def Hb.checkLoad (n : Nat) (k l : Nat) : C Bool :=
  if k = 0 then .error (.ub .divByZero) else .ok (decide (n / k > l))

/-- bptest.cpp:50-75 -/
structure Bp where
  alg : Option Alg
  j : Nat
  k : Nat
  l : Nat
  file : Str
  p : Nat

def Bp.default : Bp := ⟨none, 0, 10000, 140, "zz.dat".toList, 113⟩

/-- bptest.cpp:80-140 -/
def Bp.handle (argc : Nat) (s : Bp) : Event → C Bp
  | ('a', a) => do let g ← algorithm a s.alg; .ok { s with alg := g }
  | ('j', a) => if atol a < 0 then .error (.exit 1) else .ok { s with j := toUnsigned (atol a) }
  | ('k', a) => if atol a ≤ 0 then .error (.exit 1) else .ok { s with k := toSizeT (atol a) }
  | ('l', a) => if atol a ≤ 0 then .error (.exit 1) else .ok { s with l := toSizeT (atol a) }
  | ('i', a) => .ok { s with file := a }
  | ('p', a) => if atol a ≤ 0 then .error (.exit 1) else .ok { s with p := toSizeT (atol a) }
  | ('?', _) => badOption argc
  | _ => .error (.exit 1)

def Bp.opts : Str := "a:hi:j:k:l:p:".toList

/-- bptest.cpp:77-141 -/
def Bp.run (args : List Str) : C Bp := parse Bp.opts Bp.handle Bp.default args

/-! ## polyfact, zzrndgen, cherpars -/

/-- polyfact.cpp:33-37 -/
structure Pf where
  b : Nat
  d : Nat
  n : Nat
  quiet : Bool

def Pf.default : Pf := ⟨128, 60, 100, false⟩

/-- polyfact.cpp:46-80 -/
def Pf.handle (argc : Nat) (s : Pf) : Event → C Pf
  | ('b', a) => if atol a ≤ 0 then .error (.exit 1) else .ok { s with b := toSizeT (atol a) }
  | ('d', a) => if atol a < 0 then .error (.exit 1) else .ok { s with d := toSizeT (atol a) }
  | ('n', a) => if atol a ≤ 0 then .error (.exit 1) else .ok { s with n := toSizeT (atol a) }
  | ('q', _) => .ok { s with quiet := true }
  | ('?', _) => badOption argc
  | _ => .error (.exit 1)

def Pf.opts : Str := "b:d:hn:o:q".toList

/-- polyfact.cpp:43-81 -/
def Pf.run (args : List Str) : C Pf := parse Pf.opts Pf.handle Pf.default args

/-- zzrndgen.cpp:28-30 -/
structure Rg where
  b : Nat
  n : Nat
  file : Str

def Rg.default : Rg := ⟨80, 1000000, []⟩

/-- zzrndgen.cpp:36-58 -/
def Rg.handle (argc : Nat) (s : Rg) : Event → C Rg
  | ('b', a) => if atol a ≤ 0 then .error (.exit 1) else .ok { s with b := toSizeT (atol a) }
  | ('n', a) => .ok { s with n := toSizeT (atol a) }
  | ('o', a) => .ok { s with file := a }
  | ('?', _) => badOption argc
  | _ => .error (.exit 1)

def Rg.opts : Str := "b:hn:o:".toList

/-- zzrndgen.cpp:33-67: the options, with the name of the file. -/
def Rg.run (args : List Str) : C Rg := do
  let s ← parse Rg.opts Rg.handle Rg.default args
  .ok { s with file := if s.file = [] then "zz.dat".toList else s.file }

/-- cherpars.cpp:26-32 -/
structure Ch where
  l : Nat
  n : Nat
  p : Real
  quiet : Bool

noncomputable def Ch.default : Ch := ⟨100, 1024, -40, false⟩

open Classical in
/-- cherpars.cpp:38-74; `atof` is a parameter, `double` is modelled by the reals (`epsilon = 1e-4`). -/
noncomputable def Ch.handle (atof : Str → Real) (argc : Nat) (s : Ch) : Event → C Ch
  | ('l', a) => if atol a < 1 then .error (.exit 1) else .ok { s with l := toSizeT (atol a) }
  | ('n', a) => if atol a ≤ 0 then .error (.exit 1) else .ok { s with n := toSizeT (atol a) }
  | ('p', a) => if atof a ≥ -(1 / 10000) then .error (.exit 1) else .ok { s with p := atof a }
  | ('q', _) => .ok { s with quiet := true }
  | ('?', _) => badOption argc
  | _ => .error (.exit 1)

def Ch.opts : Str := "hl:n:p:q".toList

/-- `n = pow(2., n)`, cherpars.cpp:84: a `double` that is not less than `2^64` (it may be infinite) cannot be converted to `size_t`. -/
def powSizeT (n : Nat) : C Nat := if n < 64 then .ok (2 ^ n) else .error (.ub .badConversion)

/-- cherpars.cpp:25-93: what is printed. -/
noncomputable def Ch.run (atof : Str → Real) (args : List Str) : C Cher.Result := do
  let s ← parse Ch.opts (Ch.handle atof) Ch.default args
  let n ← powSizeT s.n
  .ok (Cher.search s.l n ((2 : Real) ^ s.p))

end EoPsi.Cli
