import Verif.Model.Stream

/-! # `bptest`, `polyfact` and `zzrndgen` as whole programs

Command line, files, computation, times and the release of memory.  Messages are not modelled, memory is not exhausted.  The clock is any sequence of readings (nanoseconds). -/

namespace EoPsi.Cli

/-- `NTL::GenPrime_ZZ(bits, 100)` for at least two bits (library code): a prime of that many bits.  (NTL's primes are only probable ones.)  It does not accept fewer bits. -/
structure Primes where
  gen : Nat → Nat
  prime : ∀ b, 2 ≤ b → (gen b).Prime
  bits : ∀ b, 2 ≤ b → numBits (gen b) = b

/-! ## Memory -/

/-- How a block was allocated, or how it is released: `new T` and `delete p`, `new T[n]` and `delete [] p`. -/
inductive Form | single | array
  deriving DecidableEq

/-- The blocks a program owns. -/
abbrev Owned := List (String × Form)

/-- `delete` and `delete []`: the block must be there and must have been allocated in the same form. -/
def release (live : Owned) (x : String × Form) : C Owned :=
  match live.lookup x.1 with
  | none => .error (.ub .useAfterFree)
  | some form => if form = x.2 then .ok (live.erase (x.1, form)) else .error (.ub .wrongDelete)

/-- Several releases in order: what is left. -/
def releaseAll (live : Owned) (xs : List (String × Form)) : C Owned := xs.foldlM release live

/-- What `bptest` allocates: bptest.cpp:81-93, 190-199, 219. -/
def Bp.allocates : Owned := [("hashAlgorithm", .single), ("hashBuckets", .single), ("polynomials", .array), ("evaluations", .array), ("strHashAlgorithm", .single),
  ("zzpprf", .single), ("threads", .array), ("cumulSplit", .array), ("zzpSeed", .single), ("z", .array)]

/-- bptest.cpp:375-380 -/
def Bp.releases : List (String × Form) := [("z", .array), ("hashAlgorithm", .single), ("hashBuckets", .single), ("cumulSplit", .single), ("strHashAlgorithm", .single), ("zzpprf", .single)]

/-- What `polyfact` allocates, polyfact.cpp:100-103, and releases, polyfact.cpp:171-174. -/
def Pf.allocates : Owned := [("zzpprf", .single), ("polynomials", .array), ("bmGen", .single), ("bmFact", .single)]
def Pf.releases : List (String × Form) := [("polynomials", .array), ("zzpprf", .single), ("bmFact", .single), ("bmGen", .single)]

/-- What `hbtest` allocates, hbtest.cpp:53-64, 96-98, 129, and releases, hbtest.cpp:150-152. -/
def Hb.allocates : Owned := [("hashAlgorithm", .single), ("hashBuckets", .single), ("z", .array)]
def Hb.releases : List (String × Form) := [("z", .array), ("hashAlgorithm", .single), ("hashBuckets", .single)]

/-! ## bptest -/

/-- What `bptest` prints, bptest.cpp:212-216, 333-372. -/
structure Bp.Report where
  warn : Bool
  count : Nat
  firstBits : Nat
  padBits : Nat
  /-- microseconds -/
  totals : List Int
  /-- microseconds; `none`: a floating-point division by zero -/
  averages : List (Option ℚ)

/-- The calls of the chronometer with its readings, bptest.cpp:224, 229, 235, 239, 246, 248, 254, 258, 265, 269, 275, 314, 320, 328. -/
def Bp.calls (clock : Nat → Int) : List (Bench.Call × Int) :=
  [(.start, clock 0), (.step "padding", clock 1), (.step "", clock 2), (.step "hashbuckets", clock 3), (.step "", clock 4), (.step "conceal", clock 5), (.step "", clock 6),
    (.step "polgen", clock 7), (.step "", clock 8), (.step "unkgen", clock 9), (.step "", clock 10), (.step "poleval", clock 11), (.step "", clock 12), (.stop "blind", clock 13)]

/-- bptest.cpp:333-372: the names, and what the times are divided by for the averages (products that exceed a `size_t` are not modelled). -/
def Bp.parts (n k l : Nat) : List (String × Nat) :=
  [("padding", n), ("hashbuckets", n), ("conceal", k), ("polgen", k), ("unkgen", 2 * l + 1), ("poleval", k * (2 * l + 1)), ("blind", k * (2 * l + 1))]

/-- `main` of `bptest` up to the last output, bptest.cpp:52-373.  `D`: the digest of the generators; `D1`, `D256`: SHA-1, SHA-256; `fs`: the files. -/
noncomputable def Bp.work (P : Primes) (D D1 D256 : Digest) (seed : UInt32) (fs : Str → Option (List Char)) (clock : Nat → Int) (args : List Str) (rnd : List Nat) : C Bp.Report := do
  let s ← Bp.run args
  if h : 2 ≤ s.p then
    haveI : Fact (P.gen s.p).Prime := ⟨P.prime s.p h⟩
    match fs (if s.file = [] then "zz.dat".toList else s.file) with
    | none => .error (.exit 1)
    | some f => do
      let (first, zs) ← Stream.readBp f
      let warn ← Hb.checkLoad zs.length s.k s.l
      let pad := numBits (P.gen s.p) % 2 ^ 32
      let _ ← BpTest.run D ((s.alg.getD .murmur).make D1 D256 seed (P.gen s.p)) s.k s.l (zs.map (fun v : Int => ((zeroPad v pad : Int) : ZMod (P.gen s.p)))) rnd
      let b ← Bench.new.run (Bp.calls clock)
      let totals ← (Bp.parts zs.length s.k s.l).mapM (fun x : String × Nat => b.benchmarkAt x.1)
      .ok { warn := warn, count := zs.length, firstBits := numBits first, padBits := pad, totals := totals
            averages := (totals.zip ((Bp.parts zs.length s.k s.l).map Prod.snd)).map (fun x : Int × Nat => if x.2 = 0 then none else some ((x.1 : ℚ) / x.2)) }
  else .error .abort

/-- `main` of `bptest`, bptest.cpp:52-382: what has been printed, and how the program ends. -/
noncomputable def Bp.main (P : Primes) (D D1 D256 : Digest) (seed : UInt32) (fs : Str → Option (List Char)) (clock : Nat → Int) (args : List Str) (rnd : List Nat) :
    Option Bp.Report × C Owned :=
  match Bp.work P D D1 D256 seed fs clock args rnd with
  | .error e => (none, .error e)
  | .ok r => (some r, releaseAll Bp.allocates Bp.releases)

/-! ## polyfact -/

/-- What is printed about one of the two chronometers, polyfact.cpp:149-153, 156-160, 163-167 (microseconds). -/
structure Pf.Stats where
  average : ℚ
  deviation : ℝ
  min : Int
  max : Int
  total : Int

noncomputable def Pf.stats (b : Bench) : C Pf.Stats := do
  let a ← b.average true
  let d ← b.standardDeviation true
  let m ← b.min true
  let M ← b.max true
  let t ← b.cumulative 0 true
  .ok ⟨a, d, m, M, t⟩

/-- The calls of one chronometer, polyfact.cpp:124, 129, 141 (`first = 0`) and 132, 134, 142 (`first = 2`): there are four readings in each round. -/
def Pf.calls (clock : Nat → Int) (first n : Nat) : List (Bench.Call × Int) :=
  (List.range n).flatMap (fun j => [(.step "", clock (4 * j + first)), (.pause "", clock (4 * j + first + 1))]) ++ [(.stop "", clock (4 * n + first))]

/-- What `polyfact` prints: the degree and the number of experiments (lines 111-115), the dots (line 137), the times. -/
structure Pf.Report where
  /-- only without `-q` -/
  generation : Option Pf.Stats
  factorisation : Pf.Stats
  dots : Nat

/-- `main` of `polyfact`, polyfact.cpp:29-177: what it prints, and the memory it has not released.  `time`: the result of `time(NULL)`. -/
noncomputable def Pf.main (P : Primes) (D : Digest) (F : ∀ (p : Nat) [Fact p.Prime], Factoring p) (time : Int) (clock : Nat → Int) (args : List Str) (rnd : List Nat) :
    C (Pf.Report × Owned) := do
  let s ← Pf.run args
  if h : 2 ≤ s.b then
    haveI : Fact (P.gen s.b).Prime := ⟨P.prime s.b h⟩
    do
    let (_, dots) ← PolyFact.run D (F (P.gen s.b)) (time : ZMod (P.gen s.b)) s.n s.d s.quiet rnd
    let bmGen ← Bench.new.run (Pf.calls clock 0 s.n)
    let bmFact ← Bench.new.run (Pf.calls clock 2 s.n)
    let f ← Pf.stats bmFact
    let g ← if s.quiet then .ok none else (Pf.stats bmGen).map some
    let left ← releaseAll Pf.allocates Pf.releases
    .ok (⟨g, f, dots⟩, left)
  else .error .abort

/-! ## zzrndgen -/

/-- `main` of `zzrndgen`, zzrndgen.cpp:25-96: the files afterwards.  `writable`: the names for which a file can be opened for writing (lines 70-74); its old content is dropped. -/
def Rg.main (D : Digest) (writable : Str → Bool) (fs : Str → Option (List Char)) (args : List Str) (rnd : List Nat) : C (Str → Option (List Char)) := do
  let s ← Rg.run args
  if writable s.file then do
    let f ← NumFile.zzrndgen D s.n s.b rnd
    .ok (fun name => if name = s.file then some f else fs name)
  else .error (.exit 1)

end EoPsi.Cli
