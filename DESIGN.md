# Formal model of nitrogl/eo-psi in Lean 4 — design

## 1. Technique and trusted base

* Everything below `lean/Verif/` is checked by **Lean 4.33.0's kernel**. Mathlib is used for
  polynomials, `ZMod p`, Lagrange interpolation and list/number lemmas; it is checked by the same kernel.
* **Axioms**: only `propext`, `Classical.choice`, `Quot.sound` (Lean's standard three).
  No axiom is declared here; no `native_decide`, no `bv_decide`.
* The tie between C++ and the model is *reading*: each definition cites file and lines in `/repo`.
  The code is not executed here.
* **Assumed about things outside the repository** (they are parameters or definitions of the model, never axioms):
  * NTL: `ZZ` is ℤ; `ZZ_p` after `ZZ_p::init(p)` with p prime is `ZMod p`; `rep` is the least non-negative
    representative; `BuildFromRoots`, `eval`, `SetCoeff`, `MakeMonic`, `interpolate` do what the NTL manual says
    (`interpolate` aborts for vectors of different lengths or repeated points); `CanZass`/`berlekamp` on a monic
    polynomial return its pairwise different monic irreducible factors with multiplicities **in any order**, and abort
    otherwise. This specification is a structure (`Factoring`) that is proved to be inhabited.
    `GenPrime_ZZ(b, 100)` returns a prime of exactly b bits (structure `Primes`, inhabited) and aborts for b < 2; `>>` of a
    `ZZ` accepts white space, a minus sign and digits, and otherwise sets the fail flag and leaves the variable.
    `NumBits`, `NumTwos` (`NumTwos(0) = 0`), `ZZFromBytes`/`BytesFromZZ` (little-endian) are defined, not assumed.
  * GMP: `mpz_t` is ℤ, `mpz_fdiv_ui` traps for divisor 0.
  * CryptoPP: a digest is *some* function from byte strings to byte strings of fixed length (20 for SHA-1). No
    cryptographic hardness is assumed anywhere.
  * libc/NTL randomness: arbitrary lists of draws supplied from outside (every theorem ranges over all of them).
    A loop that waits for a suitable draw and exhausts the list gives the outcome `outOfDraws` ("still running").
    The list `ntl` holds the results of the calls of `RandomBits_ZZ(128)` in `EOPSIClient::receive`.  NTL's `CanZass` also
    uses NTL's generator; what it takes is not in the list (it only changes which numbers the later calls return, and the
    list is arbitrary) and its effect on the order of the factors is covered by `Factoring.at`: an arbitrary order at every
    moment.
  * `new` never fails (the `bad_alloc` branches are not modelled; only the arrays of hbtest and bptest, whose size is read from a file, can be too large, C113) and never returns an address twice.
* **Undefined behaviour is a separate outcome** (`Fault.ub …`: null dereference, use after free, out of bounds,
  shift too wide, division by zero, `delete` for `new[]`, reading indeterminate values), as are `exit(code)` and NTL's `abort`.
* `size_t` is an unbounded `Nat`, except where wrap-around matters: `padSize` (mod 2^64) and the 8-byte encoding of the
  index in the pseudo-random function.
* **Exactly what is and is not modelled** is listed in section 2a.
* Concrete examples next to the theorems are closed by `rfl`, `simp` or `decide +kernel` (the kernel evaluates; no
  compiled code); they only show that hypotheses can be met and are never counted as proofs of a property.

## 2. Model modules (`lean/Verif/Model/…`)

| module | models |
|---|---|
| `Basic` | outcomes; bytes, C strings, `ZZFromBytes`, `BytesFromZZ`, `NumBits`, `NumTwos` |
| `NtlMiss` | `ntlmiss.cpp` |
| `StrInt` | `strint.cpp` |
| `HashAlg` | digests as functions: `shazzp.cpp`, `shabyte.cpp`, `shastr.cpp`, decimal printing |
| `Sha` | the same classes as objects with one digest buffer (`sha.hpp`) |
| `Readable` | `readableDigest` (`hashalgorithm.hpp`); CryptoPP's `HexEncoder` is described, not modelled |
| `Murmur` | `murmurhash3.cpp`: `x64_128` and `hash` (the variant the library calls) |
| `HashBuckets` | `hashbuckets.hpp`, `hashtable.hpp`, `markedvector.hpp`, including `printStats` |
| `Prf` | `prf.hpp`, `zzprf.cpp` (with its reused buffers), `zzpprf.cpp` |
| `Poly` | `zzppoly.cpp` as an object with nullable storage |
| `World` | messages, parties, heap, tables; `eopsimsg.cpp`, `eopsiparty.cpp` |
| `Protocol` | `eopsiclient.cpp`, `eopsiserver.cpp` |
| `Lifetime` | the destructors of parties, messages and tables |
| `Simul` | the helper functions of `eopsisimul.cpp` |
| `SimulMain` | `main` of `eopsisimul.cpp` from the parsed options to the clean-up |
| `Bench` | `simplebm.cpp` |
| `Tools` | `cherpars.cpp`, `zzrndgen.cpp`, `hbtest.cpp`, `bptest.cpp`; `eopsimsg.cpp` alone; `exception.cpp`, `outofboundex.cpp`, `protocolex.h` |
| `TestPrograms` | `polyfact.cpp`, `bptest.cpp` as whole programs (`Tools` has the parts of `bptest.cpp` that C67 needs) |
| `PrfHeap` | memory of `zzprf.cpp`, `zzpprf.cpp`, `sha.hpp`, `prf.hpp`: constructors, implicit copies and assignments, `generate`, destructors (without the automatic seed) |
| `Cli` | command lines of the programs in `src/test` (`getopt`, `atol`, the `switch` statements) |
| `Owners` | memory of `StrInt`, `HashBuckets`, `ZZpPolynomials`: who owns which block, implicit copies and assignments |
| `HbTest` | `printStats` completely; `hbtest.cpp` as a whole program |
| `Example` | `res/examples/randomzzgen.cpp` with its input |
| `PolyConsole` | `useThreads`, the messages of `zzppoly.cpp`, `operator<<` of a batch |
| `BenchConsole` | the messages of `simplebm.cpp` |
| `TableConsole` | the messages of `hashbuckets.hpp`, histories with changing algorithms |
| `Convert` | `vector2VecZZp`, `array2VecZZp`, `printZZArray` |
| `Stream` | reading a file of any content: `hbtest.cpp`, `bptest.cpp` |
| `Programs` | `bptest.cpp`, `polyfact.cpp`, `zzrndgen.cpp` from the command line to the last `delete` |
| `Console` | what `eopsiclient.cpp`, `eopsiserver.cpp` write to the terminal, with the clock readings of `simplebm.cpp` |
| `SimulConsole` | what `eopsisimul.cpp` writes to the terminal and its own clock readings |

### 2a. Not modelled, and simplifications

* The texts on the terminal (`Model/Console` has the lines with the values in them and the times measured inside the protocol, C118–C120; `Model/SimulConsole` for the simulator); `std::cerr`; allocation failure;
  usage texts (the options themselves are modelled, C104; `getopt`/`atol` follow the GNU documentation); the messages of `ZZpPolynomials` on `std::cerr`, `useThreads` and both `operator<<` are modelled (C140, C141), and those of the chronometer (C142) and the hash table (C143).
* The `x86_32` and `x86_128` variants of MurmurHash3: private and never called.
* Real threads: `blind` overwrites the requested number with 1 before using it (C63); the arithmetic of the disabled
  partition is modelled (C64).
* Destructors: those of parties, messages and tables (`Model/Lifetime`, C89–C91) as actions of the user next to calls; the theorems
  about `Reachable` states are about histories of calls without destructions.  After a destruction the name of the object
  is free again; any use of a pointer to a destroyed object is undefined behaviour unless a new object has its name.
* `double` is ℚ or ℝ (chronometer statistics, Chernoff bound); `qsort` is any function that sorts according to the
  comparison it is given (`Sorts`, inhabited).
* The list in the header of `Model/World.lean` (addresses never reused, pseudo-random objects replaced by the pure
  function that C37/C38 prove they compute, …) holds for the whole protocol model.

The protocol model is a world with objects referred to by references: parties, message objects, hash tables and a heap
of cells (`byte[]` or `vec_ZZ_p[]`) addressed by pointers that can be null, live or dangling. `receive` is defined by
open recursion with fuel; that three levels always suffice is theorem C16, so `receive` is `receiveN 3`.
The stateful pseudo-random object (with buffers of indeterminate bytes) is modelled in `Prf` and proved equal to a pure
function for every history (C37); the protocol model then uses that pure function.

Property theorems live in `lean/Verif/Props/`, apart from helper lemmas (`lean/Verif/Lemmas/`). Each is followed by
`example`s meeting its hypotheses. `lean/Verif/Spec/` holds the small specifications used in statements.
Realistic bugs seeded into the model, and what failed, are logged in `seeded/LOG.jsonl`.

## 3. Plan per property

| id | what is modelled | how proved |
|---|---|---|
| C01 | whole simulator sequence: constructors, authenticate, setRawData ×2, outsourcing ×2, client request | symbolic execution of the world model + interpolation of t−q + roots of common values |
| C02 | same | roots accepted by `findIntersection` = padded roots of the combined polynomial |
| C03 | `findIntersection` | `NumTwos 0 = 0` |
| C04 | `findIntersection` with multiplicities | distinct monic factors of degree 1 have distinct roots; unpadding is injective on multiples |
| C05 | `blind`, `computeTOrQ`, `delegationOutput` | cellwise ring identity |
| C06 | Lagrange interpolation | degree bound, uniqueness; converse by degree of interpolant |
| C07 | `zeroPad`, `padSize`, `conv`, `rep` | arithmetic |
| C08 | `padSize` with wrap-around | `NumTwos z < 2^63` for representatives |
| C09 | `receive` of OUTPUT and POLYNOMIAL | case analysis of both orders |
| C10, C11 | freed pointers kept | dangling-pointer states reached from a completed run |
| C12 | `setRawData` twice | conceal fills all buckets |
| C13–C15 | request codecs, draw loop | byte-list round trip, induction on draws |
| C16 | open recursion | message types along nested sends |
| C17–C21, C25–C27 | decision logic of `receive`/`isAuthorised` | case analysis in every state |
| C22–C24 | histories of `authenticate`, outsourcing | induction over histories |
| C28–C33 | `HashBuckets` histories | induction, refinement to filters of the list of added elements |
| C34–C36 | `StrInt` | sum invariant of the pairwise summation |
| C37–C42 | PRF object with buffers | buffer invariant, refinement to a pure function |
| C43, C44 | `blind`, `getUnknowns` | the result is a function of secret mod p / field bits |
| C45 | one-time pad argument for `blind` | bijection of pads |
| C46–C48 | `ZZpPolynomials` object | object invariant; uniqueness of factorisation |
| C49–C53 | chronometer | induction over histories |
| C54–C56 | Murmur/SHA table hashes | bounds of reads; dependence on blocks only |
| C57–C60 | simulator helpers | sorted-list induction |
| C61, C62 | ntlmiss helpers | arithmetic |
| C63, C64 | thread argument and partition | definitional + arithmetic |
| C65 | cherpars search over ℝ | induction on mu; floating-point rounding itself not modelled |
| C66, C67 | zzrndgen/hbtest files, bptest | token-level file model; vector algebra |
| C68, C69 | messages, exceptions | case analysis over histories |
| C70 | `printStats` of a table | invariant of the scanning loop |
| C71 | `setRawData` after lowering the degree | rows keep the length of the points; columns behind `degree` are plain |
| C72 | `variance`, `standardDeviation` | loop invariant over the readings |
| C73 | helper functions of the simulator applied to the result of a run | C02_exact + C57 + C59 |
| C74 | the chronometer calls of one `polyfact` phase | the history is a C49/C51 history |
| C75, C76 | `main` of the simulator | symbolic execution of the world model from the empty world; C73; ownership of the arrays |
| C77 | Murmur x64_128 against an independent definition of the published algorithm | bodies agree, tails compared bit by bit |
| C78 | SHA objects with one buffer | induction over the history of calls |
| C79 | `computeTOrQ`, the two result halves, with the values of the key as random variables (`Spec/Ideal.lean`) | the map from key values to the view is affine and surjective (Bezout with degree bounds); image of the uniform distribution |
| C80 | same | evaluation at a point is surjective; union bound; C02 for the code |
| C81 | `setRawData`, `blind`, `conceal` with the automatic generator | loop invariant of `conceal` with running index; reachable tables are empty or full |
| C82 | C81 with the fillers as random variables, C80 | union bound over pairs of places; conditioning on the fillers |
| C83 | message objects of the world, all calls (also C68 for protocol messages) | one-step lemma over all calls, induction over the history |
| C84 | the values the getters of a party return, as a fold over the history | one-step lemma over all calls (a delivery only makes the events of Evs), induction over the history |
| C85 | `ZZpPolynomials` with all five methods in any order; specification: current polynomials, polynomials factorised last, result | inversion of the loops, simulation invariant between object and specification, induction over the history; the specification is shown to be deterministic |
| C86 | any interleaving of the calls of a session with foreign calls of others (`Plan.Runs`, `Plan.Foreign`) | progress invariant (what Alice and Bob have done, what their objects contain, who is known under which name, which arrays are theirs), preserved by every foreign call through an elementary-change analysis of deliveries that spares Bob and the arrays of the session |
| C87 | families of sessions at one time (`Joint`) | each call of one session is foreign to the others; C86; completion by induction over the remaining calls with a budget of random numbers |
| C88 | the two generators as lists of future draws | case analysis of all calls, induction over nested deliveries, induction over histories with the set of seeded clients |
| C89 | destructors and releases as actions next to calls (`Model/Lifetime`, `Spec/Lifetime`) | invariant of one array over all actions, through nested deliveries |
| C90 | the same | ownership invariant: no two clients share blinded data; induction over the list of destructions; both orders reach a state determined by `Without` |
| C91 | the same | released arrays stay released (addresses are not reused); run of the receiving code to its first use of the dead object |
| C92 | `Model/TestPrograms` (`PolyFact`) | induction over the rounds; multiplicities by counting roots of the product of the factors |
| C93 | `Model/TestPrograms` (`BpTest`), tables of `HashBuckets` | simulation of the generator object by the generator of the protocol model, then C31 / C82 facts on tables and C67 on rows |
| C94 | `Model/PrfHeap`: buffers of `ZZPRF`/`ZZpPRF` and their hash objects as blocks of memory, copies share them | separation invariant over programs (owners disjoint, nothing else alive, sizes = largest request so far); for copies the invariant 'a hash object is dead or has two owners' is preserved until all are destroyed |
| C95 | relation `World.Same` between two processes (`Spec/Leak`): equal but for raw data, results, filler generator, table contents and the values of field matrices | relational logic over the model's monad: every function takes related states to related states and equal exceptions, then induction over histories; completed sessions from C02. Deliveries nested in one call are covered by the proof but only the state between calls is stated |
| C96 | `Spec/Results`: shape of the reported list, programs within bounds | invariant of all elementary state changes of a delivery (`Evs`), then induction over histories; the one-bucket facts are C04's. Gives the protocol forms of C03 and C04 |
| C97 | the outcome `thrown` of every call, with the world it leaves | `Out.Throws` (a postcondition on the thrown outcome) is propagated through every handler, from the inside out: the leaf handlers throw in the state they were called in, the two nesting handlers throw either before their first change or with the change that `ReplyRefused` / `HelpRefused` (in `Spec/Failure`) spell out; a session realises the first |
| C98 | the values that different parties hold in a session, and `Party.secretOfBytes` (the constructor from bytes) | `unblind` and `unmask` in `Spec/Collusion` are what somebody could compute from those values; the explicit forms of the outsourced matrices and of the helper's matrix (from C01) make them interpolations of the bucket polynomial, in all columns or in those in which the random polynomial does not vanish, and those are enough by degree counting |
| C99 | `ZZPRF::generate`, `ZZpPRF::generate`, `setRawData` with a digest that answers the inputs of the pads with given bytes (`Spec/Oracle`) | one digest is the base-256 expansion of a uniform number and reduction modulo 2^b is a surjective homomorphism; counting of preimages modulo p; a nonconstant function on Z/p has no period; C81, C44 and C39 for the part that does not depend on the answers |
| C100 | a whole session up to Bob's computation, `genUnknowns` with a digest that answers the inputs of the points with given bytes | symbolic execution as in C01 up to the first interpolation, which aborts; pigeonhole; C99_numbers, counting of pairs of equal remainders, union bound |
| C101 | the whole session of C01 with a digest that answers a finite set of inputs with given bytes | C82_run for each digest; each of the three kinds of bad event fixes one hashed field element by the others, so double counting over the answer to one input bounds it by 2/2^b (two numbers of b bits have one remainder); union bound |
| C102 | the calls of a session up to the request, with a digest that answers the pads of both clients with given bytes | session_ready' for each digest gives the stored matrices; points and fillers come from other seeds, hence other inputs; the pads are an injective family of inputs, so C99_numbers gives independence; a hybrid argument over the values bounds the distance |
| C103 | the calls of a session up to Bob's computation, with a digest that answers the inputs under the temporary key with given bytes | C79_run for each digest; everything else comes from other seeds, hence other inputs; the inputs of different roles differ (C39, C40), so C99_numbers gives independence; the hybrid argument of C102 compares the key with a uniform one, for which C79 gives equality |
| C104 | `Model/Cli`: `getopt` and `atol` of the GNU C library (options in clusters, values in the same or the next word, `--`, `?`), the six `switch` statements with their checks and defaults, the read of `argv[op]`, the conversion of `pow(2., n)` | every handler is an update on the accepted options and a known fault on the others; fold over the events: iff-characterisation of the settings (`C104_simulator`, `C104_hbtest`, `C104_bptest`, `C104_polyfact`, `C104_zzrndgen`, `C104_cherpars`), refusal at the first bad event (`C104_refused`), completeness with `NumFile.decimal`, `C104_no_verdict` via C76 |
| C105 | `Model/Owners`: blocks made with `new`, objects with the pointers they own, the acts of a program (constructors, methods, implicit copies and assignments, destructors); contents and sizes of the blocks are in the other models (C85) | invariant "every block belongs to one object or is one of the lost ones" for programs without copies: `C105_safe`, `C105_leak` (count of lost blocks against `Spec/Owners.replaced`); invariant "two objects own the same block or one owns a released block" is preserved by every act that succeeds: `C105_copies_fatal`, `C105_polynomials` |
| C106 | `Model/HbTest`: `printStats` with average, truncated variance and listing (double as ℚ); `main` of `hbtest` from the command line (`Model/Cli`) and the file (`NumFile.hbtest`) to the report | C70 for the integers; termwise comparison of the truncated with the true squares, equality iff the mean is whole; C31/C28 invariants of the table for SHA, C54 for Murmur, C66 for files of `zzrndgen` |
| C107 | helpers with several querying clients (`Served`): the helper's calls are made once for all her sessions | a step of the helper is a step of each of her sessions; a step of a querying client is foreign to the others (`Progress.bobShared`, C86/C87); completion by induction over the remaining calls |
| C108 | `Spec/Search`: what the cloud finds if it removes the pads of every secret of three bytes; ideal pads as independent uniform matrices, one per secret | C98 (unblinding with the right secret) and C14 (bounds of the secret); union bound and counting of the matrices that are values of a table (at most p^(LH) of p^(LD)) |
| C109 | `Spec/Queries`: the views of adaptive queries with a new ideal key each, as a PMF on lists of views | induction over the queries, C79 for one query, congruence of bind on the support |
| C110 | `PreparedAny`, `AskedAny` (a session with any secret), `Distorted`, `heard` (Spec/Run, Spec/Misheard) | the run of C02 with the number the helper reads (C14) in place of the secret; uniqueness by Lagrange interpolation; the ideal statement by surjectivity of a linear map onto the values at the chosen elements |
| C111 | `Example.main` with standard input as a text, `>>` of an `int`, the question loop run for a number of rounds (Model/Example) | induction over the typed lines; once an extraction has failed the state repeats; the generator's specification (C38) |
| C112 | `Convert.copyLoop`, `arrayInto`, `printZZArray` (Model/Convert) | induction over the loops; injectivity by splitting the text at the first character that belongs to no number |
| C113 | `readSizeT`, `readZZ` with the fail flag, `readHb`, `readBp`, `Hb.program` (Model/Stream); `Begins`, `NoNumber` (Spec/Stream) | induction over the numbers of the file; after a failed extraction the stream stays failed |
| C114 | `Bp.main`: options, file, computation, chronometer calls, printed report, memory (Model/Programs) | C93 for the computation, C49/C53 for the chronometer, the releases evaluated |
| C115 | `Pf.main` (Model/Programs); `durations`, `squares`, `Describes` (Spec/Programs) | C92 for the experiments, C72/C74 for the chronometer |
| C116 | `Rg.main` on a file system, then `Hb.program`, `Bp.main` (Model/Programs) | the file of `zzrndgen` satisfies `Begins`; C113, C106, C114 |
| C117 | `setRawData`, `blind` (Model/Protocol); `differencePoly` (Props/Update) is what the observer computes | pads cancel (they depend on the secret and position only); the difference of two monic polynomials of one degree, its roots counted with multiplicity |
| C118 | `Model/Console`: the functions of Model/Protocol a second time, with the lines written and the calls of the chronometers; lines are described by the values in them | an erasure relation preserved by every step (for all states); forward execution of an answered query; unblinding with the printed secret as in C98 |
| C119 | chronometer calls of a query, numbered in the order of execution, over an arbitrary clock | sums of truncated differences telescope; the statistics by C72/C74; a stopped chronometer ignores `cont` and `pause` |
| C120 | `Model/SimulConsole`: `main` of the simulator a second time, with its lines and its own chronometer | erasure relation with a related state of the chronometer; forward execution with C118; readings of the chronometer by C49/C53; telescoping sums |
| C121 | `setRawData`, messages without data, the server's computation with a null operand | first element of the double loop; forward execution up to the fault; inversion of the computation for arbitrary states |
| C122 | the session of C01/C02 with arbitrary integers as inputs | C02_sound with a characterisation of what a padded integer unpads to (2^pad is a unit modulo an odd prime) |
| C123 | queries and whole sessions of parties with arbitrary, different dimensions (Lemmas/Introduced, Props/Dimensions) | every read of a matrix either ends or is out of bounds, decided by the shape; lifted through the nested loops, the server, the helper and the search |
| C124 | `Props/Mismatch`: the session lemma of C01/C02 generalised to two hash functions (`PreparedTwo`) and two bit sizes (`sessionTwo`); the roots of the combined polynomial in bucket j are those of the parts the two tables put there. Concrete session without accidental roots: equal sets, empty result |
| C125 | `Props/Mismatch`: the stored elements `v * 2^pad` agree exactly if the fractions agree (`stored_eq`). Concrete session: a value is reported that Alice does not have |
| C126 | `Props/Load`: the session lemma generalised to two bucket sizes (`PreparedTwo` with `loadA`, `loadB`); `mismatch_exact` with one hash function and one number of bits. Concrete session with height 0, sizes 1 and 2 |
| C127 | `Props/Load`: the distribution argument of C79 for m ≤ H; the matrices of a session are those of `bobView` (`C127_session`); for fixed coefficients the values at height + maxLoad points determine the bucket, so the possible buckets inject into the pairs of coefficient vectors |
| C128 | `Props/FewPoints`: `query_values`/`query_zero` with the remainder modulo the product of all X - point as the interpolated polynomial (`C128_remainder`); with degree 2*height the remainder is the polynomial minus twice the product (`one_missing`, from `combined_degree`). Concrete session: equal sets, empty result |
| C129 | `Lemmas/FieldSize`: replacing every field size by the least number of as many bits commutes with every call (`norm_call`, by going through all functions of the model, induction over nested deliveries); related histories have the same image, so their outcomes are related (`C129_call`, `C129_history`, `C129_runs`). Concrete session: modulus 13, field sizes 15, 8, -9 |
| C130 | `Lemmas/MsgLength`: two processes that differ in message lengths only are related by every function of the model (`cut_*`, induction over nested deliveries), hence by every call and history (`C130_call`, `C130_history`) |
| C131 | `Spec/Malformed` describes the bytes of requests independently of the parser; case analysis over the first and second NUL of arbitrary bytes against the handlers (`C131_server`, `C131_client`), and over what the data pointer points to (`C131_request_without_bytes`, `C131_result_without_vectors`); reachable truncated requests as examples |
| C132 | `Lemmas/Order`: adding a list to a table has a closed form in the number of elements going to each bucket (`addList_rule`), hence related outcomes for permuted lists (`addList_order`, `conceal_order`, `blindC_order`); every other function of the model maps related processes to related ones (`ord_*`, induction over nested deliveries); `C132_history`, `C132_observed`, `C132_shipped`; a whole reversed session as example |
| C133 | `Spec/Forged` (`sessionOwn`): users can make arrays of field elements (`Src.matrix`); `ready_own`: a complete request stays complete when Bob outsources other values, for which polynomials are found by interpolation; `query_values`, `query_zero` as in C128; `C133_values` for any array, `C133_whole_set` for the pads, `C133_array` for their existence; example with disjoint sets |
| C134 | the same for the helper (`ready_ownA`, `C134_values`, `C134_everything_common`) |
| C135 | `Spec/ForgedResult` (`forgeBoth`, `Waiting`, `KnowsA`): the two messages are followed step by step (`forge_arrives`, `forgeBoth_run`); `diffC_values`/`oneShot_values` as in C128; `C135_values` for any arrays, `C135_chosen` by evaluating the products of the linear factors of the padded values (C07), `C135_session` in a prepared session where nobody asks |
| C136 | `asked_misled` (a forged half keeps what a request needs), `forge_arrives`; the result: `query_result` in both states and the roots compared (`C136_output`); the polynomial: `cloud_phase_misled` computes the premature intersection and `query_misled` follows the helper's reply to the deleted array (`C136_polynomial`) |
| C137 | `readableDigest` with `HexEncoder` as two digits per byte (`Readable`); specification `HexShows` with the value of a digit | `hexEncode` satisfies `HexShows`, a text is determined by the bytes and conversely by induction on positions; with `Sha.run_eq` (C78) for histories |
| C138 | `World.arrays` (cells that are not empty), the model of C01; `Orderly` for the histories, `Call.creates` for what a call makes | a successful `send` is inverted step by step (`request_effect`, `cloud_effect`, `half_effect`), the three fresh addresses are followed to their releases; histories by induction with `Set.ncard`. Requests that throw (`C138_thrown`): from C97, which says what has changed; scratch arrays inside one function are not cells of the model |
| C139 | the model of C01 and `World.arrays` of C138; `KeysIn n`: the draws contain `n` temporary keys | an invariant `Mistaken` (Bob knows a server object under Alice's name, a request lies in the message) is shown to hold after the session's preparations and to be preserved by a request, which is computed up to the refusal; induction on the number of requests |
| C140 | `Model/PolyConsole`: the batch of C85 with `nThreads` and everything written | an invariant ties the pointers `polynomials`, `factorPairs` and `n` to the list of acts so far (`Made`, `Factorised`, `current`); the batch component is a homomorphism to the history without `useThreads` and `<<` |
| C141 | `StrInt.toStr`, `StrInt.print`, `NumFile.decimal`, `decimal` (the three models of decimal text) | a text satisfying the specification is the reversed list of `Nat.digits`; the three models are shown equal |
| C142 | `Model/BenchConsole`: the chronometer of C49–C53 with all it writes, and the questions as acts | the representation relation of C49 gives for each act the complaint of the automaton (`Spec/BenchConsole`); induction over the history; independence of the clock by a simulation between states of the automaton that differ in times only |
| C143 | `Model/TableConsole`: the table of C28–C31 with its messages; `Spec/TableConsole` says from the list of acts where each element goes | an invariant (each bucket is the sublist of what was aimed at it; the algorithm is the last one given) kept by every act, induction over the history |

## 4. Disagreements between documentation and code found while modelling

See the theorems named in MANIFEST.json; the main ones:
`HashTable::size()` is always 0 (C32); `getByteSize` counts bits (C36); statistics with pauses are 0 (C52); MurmurHash
reads out of bounds for every element (C54) and ignores tails (C55); a client dereferences null for unauthenticated
senders (C19); second runs use freed memory (C10, C11); pad size wraps (C08); zeroPadTo pads one bit short (C62);
`bptest` evaluates at 0 (C67); `zzrndgen` divides by zero for n < 10 (C66); only three secret bytes are understood (C14).
Further: the simulator as shipped hashes with MurmurHash3 and reads out of bounds in every run with n ≥ 1 (C76); it accepts
plain values as wide as the prime, for which the protocol finds nothing (C75); MurmurHash3 is the published algorithm only for
inputs without tail bytes that matter (C77); all pointers a SHA object returns share one buffer (C78); `variance` divides by
the number of all intervals, pauses included (C72).
