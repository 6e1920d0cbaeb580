# Formal model of zephyrtronium/crazy: design

Source under study: `/repo` (Go package `crazy`, pinned). Proof assistant: Lean 4.33.0, Mathlib
(single modules). `lake build` in `/verif/lean` checks everything; see "Trusted base" at the end.

## Layout

* `Verif/Model/*`  executable model, one module per Go file (+ `Go.lean` for the language/library
  primitives). Every definition cites file and lines.
* `Verif/Spec/*`   small independent vocabulary used in statements (streams, little endian, counting,
  reference MT recurrence, ...).
* `Verif/Proofs/*` helper lemmas.
* `Verif/Props/*`  the property theorems, named `Cnn_...`, each with an `example` meeting its hypotheses.

## Modelling conventions

* `uint64`/`int64` are `BitVec 64`, bytes `BitVec 8`; `int` indices and lengths are `Nat`/`Int`, on a
  64-bit platform (`uint` is 64 bits wide).
* A Go call is a function into `Go α = Except Panic α`: every slice/array access and slicing, division
  and `make` that the runtime checks is checked in the model and yields a panic value; absence of panics is a
  theorem, not an assumption. Mutation through a pointer becomes returning the new state.
* `Source`s are state transformers over an arbitrary world type, so that sharing (aliasing) of one
  source by two consumers is expressible; a reply consists of the whole new buffer, the count and the error, all arbitrary.
* Unbounded loops (rejection sampling) take fuel; theorems quantify over all fuel, and
  termination is the existence of sufficient fuel.
* Goroutines of `Yield` are a labelled transition system; theorems quantify over all traces.
* float64: finite values are rationals with an explicit round-to-nearest-even function; the two zeros are distinct;
  `math.Exp`, `math.Log` are parameters with recorded assumptions.

## Plan per property

| id | what is modelled | how proved |
|----|------------------|-----------|
| C01 | `SeedIV`,`Seed` of all five generators, op language | result of seeding is a function of iv only; lift to op sequences |
| C02 | `Save`,`Restore` | state equality (MT64, Xo*), bisimulation up to ring rotation (LFG) under the reachable-state invariant |
| C03 | store of generators, `Copy` allocates | frame lemma over interleaved traces |
| C04, C05 | `Read` of all generators with buffer contents | induction on buffer length against the spec stream |
| C06, C07 | `RNG.Uint*` | corollaries of C04; arbitrary sources for C07 |
| C08 | `Int63` | bit lemma + fibre counting |
| C09–C12 | `RNG.Uintn` with fuel, arbitrary source | induction on fuel; fibre counting over all 2^64 draws |
| C13 | same + generators | Xo*: full period (C44/C48); LFG: strictly decreasing outputs; MT64: characteristic polynomial |
| C14 | `RNG.Intn` | from C09 |
| C15–C18 | `RNG.Big`, `RNG.Bign` on `Int` | big-endian arithmetic, counting |
| C19–C21 | `XorCompose`, `SelectCompose` | pointwise on buffers |
| C22–C27 | method tables with optional methods, adapters | unfolding + induction on length |
| C28 | Go `[]rune(string)`, `string([]rune)`, `RandString` | UTF-8 decode/encode round trip; restated for Lean core's `String` (`C28_text`), whose encoder is independent of the model's |
| C29–C31 | shuffles | permutations; n! does not divide n^n |
| C32, C33 | transition system for the goroutine and channels | invariant by induction over traces |
| C34 | `SeedInt64`, `CryptoSeeded` | unfolding, injectivity of little endian |
| C35–C37 | float model, `distr.go` | exactness lemmas of rounding, counting |
| C38–C42 | `ziggurat.go`, tables of `normal.go`/`expo.go` | bit lemmas; `decide +kernel` over the complete tables lifted to all offsets |
| C43–C49, C65 | xoshiro/xoroshiro steps as GF(2)-linear maps | kernel-checked characteristic polynomial, x^(2^k) mod c, Bezout certificates for each prime factor of 2^256-1 / 2^128-1 |
| C50–C52 | `SeedIV` | bijectivity of SplitMix mixer and of the step |
| C53–C56 | `lfg.go` | ring invariant, linear recurrence, AdjoinRoot argument; 2^34 steps by repeated squaring |
| C57–C59 | op language with arbitrary reader replies | invariants over op sequences |
| C60, C63 | `mt64-19937.go` | block regeneration = recurrence; inverting the seeding loops |
| C61, C62 | `mt64-19937.go` | characteristic polynomial of degree 19937; Lucas–Lehmer for 2^19937-1; bijection from states to 311 outputs |
| C64 | `Rexoroshiro` | unfolding + induction |
| C67 | `LFG.SeedIV`, `MT64.SeedIV` | a word of the table that no other word cancels; inverting the seeding loops |
| C68 | `Shuffle*`, `RandString` | C13 + C28/C29 |
| C69 | `GenNext`, `Exponential.Next`, `Normal.Next` | a word 0 comes at even distance (odd period); it ends the loop. LFG: the upper 62 bits take all values at even distances (C87); the normal tail ends when its first uniform is at least 1-4/2^53 |
| C70 | `GenNext`, `Exponential.Next`, `expoTail` | layer by layer: accepted candidates are counted exactly and compared with the integral of the density; recursion over rounds |
| C71 | `GenNext`, `Normal.Next`, `normalTail` | as C70, with both signs; the tail's rejection loop (Marsaglia's method) is shown to converge to the conditional distribution beyond the last layer; compared with Mathlib's `gaussianReal`; under `LogOk`, `ExpOk` |
| C72 | all calls that draw from a source | each call reads a prefix of at most m words of the tape and its result depends on nothing else (`Reads m f`, proved per function); product rule by counting tapes; `Spec/Trials.lean` states "all calls return with results in the given sets" |
| C73 | `Uintn`, shuffles, `RandString` | exact law of `Uintn` by summing over the rejected rounds; total variation bound; composed over m draws by induction; combined with C28, C29, C31 |
| C74 | `LFG.Uint64`, `LFG.SeedIV`, `LFG.Seed` | modulo 2 the recurrence's polynomial has irreducible factors of degree 2, 11, 27, 108 and 187. For each prime q dividing P a certificate v (X^(P/q) - 1) = t modulo the polynomial over Z/2^64, t being monic of degree 227 or 148 (or 2^63 (X^2 + X + 1) for q = 2), so if P/q were a period the low bits would satisfy a recurrence of low order; for the seeded states explicit sums of shifted low bits (`lfgSel`) show that they do not |
| C75 | `SeedIV` of Xoroshiro, Rexoroshiro, Xoshiro | `Spec/SplitMix.lean` is the published generator over the natural numbers; the saved bytes are stated in its outputs, for all ivs, by the splitting of an iv into words and 32-byte blocks |
| C76 | `Seed`, `SeedIV` and the first calls of `Uint64` | only one state word enters Xoshiro's output and that word is xored with the second word of the (padded) iv; bijectivity from injectivity of the mixing functions |
| C77 | `XorCompose.Read`, `SelectCompose.Read` | counting by an explicit bijection: selecting with the same mask twice undoes it |
| C78 | `LFG.SeedIV`, `Seed`, `Uint64`, the table | `Spec/LfgRef.lean` gives the sequence with no ring buffer; the invariant of Proofs/LFG relates the buffer to it; the added words by induction over the iv |
| C79 | `MT64.SeedIV` | `Spec/MTSeed.lean` writes both the code's and the published seeding as one recurrence; an invariant (array window = last 311 words of the recurrence) for both loops; the published test key evaluated in the kernel |
| C80 | the RNG methods and uniform floats over each `Read` | `Spec/Calls.lean` counts the results of a run of calls; one call is shown to be a function of one output, the full-cycle theorems (C48, C49, C62) count the states visited |
| C81 | the `Uint64` methods of Xoroshiro, Rexoroshiro, MT64 | `BitRec` in `Spec/LowBits.lean`; the recurrence is the characteristic polynomial (Proofs/XoLin, MtCtx) applied to the bit; a recurrence of order d would give a period below 2^d (pigeonhole), against the exact period of the bit |
| C82 | all `Uint64` methods | `Spec/Predict.lean`; linearity, the recurrences of C81 and the full cycles; explicit pairs of states for the negative parts |
| C83 | `Xoroshiro`, `Rexoroshiro`, `Xoshiro`: `Uint64` | lower bounds: Massey's lemma with one polynomial per bit (generated by `tools/gen_lincx.py`), checked by the kernel on 2^15 outputs from one state and carried to every nonzero state by the full cycle; upper bounds: Boolean polynomials of degree at most b+1 in the state bits are a space that the state update preserves, Cayley-Hamilton |
| C84 | `LFG`, `MT64`, `Xoshiro`, `Xoroshiro`, `Rexoroshiro`: `Uint64`; `LFG.Restore` | LFG: a sum of 336 earlier words bounds each block of 335; MT64: a nonzero word has a nonzero source 312, 311 or 156 places before; zeros: periods and equidistribution (C45, C61), for Xoroshiro the one state before two zeros computed |
| C85 | `ziggurat/ziggurat.py`: `solve` (with `mini`), `tables`, in exact real arithmetic (`Verif/Model/ZigPy.lean`) | uniqueness and signs: a smaller r gives a larger area and, layer by layer, a larger ordinate; existence: the end of each layer is a continuous function of the area, intermediate values; shipped tables: the same comparison with the tolerances of C40 |
| C86 | `RNG.Bign` on the sources of the five generators | a rejected draw has bit k mod 8 of its first word set; some output at a multiple of the draw's length L has its low byte zero (C88; MT64: its zeros of C84 and a prime period; LFG: the low bits would decrease for ever, L coprime to the period) |
| C87 | `LFG.uint64`, `seedIV`, `seed` | X^P0 = 1+2U modulo the polynomial of the recurrence, P0 the odd part of the period, U odd somewhere on the state (certificate); so at multiples of P0 an output's upper bits run through an arithmetic progression with odd step |
| C88 | `Xoshiro.uint64`, `Xoroshiro.uint64`, `Rexoroshiro.uint64`, `MT64.uint64` | character sums: for a non-trivial character of the state space the sum over the orbit of T^L has a square of at most the number of states (orthogonality: T^(Li)-T^(Lj) is injective); an affine subspace is counted by 2^r characters; coprime L: permutation of the places |
| C89 | `RNG.Bign`, `RNG.Big` on a tape of bytes | one draw decides or leaves it to the rest of the tape; recursion on the number of rejections |
| C90 | `Uintn`, `Intn`, `Big`, shuffles, `RandString` with the width of `int` as a parameter (`Verif/Model/Width.lean`); `LFG.SeedIV` likewise (`Verif/Model/WidthSeed.lean`). Not modelled: `MT64.SeedIV` on 32-bit platforms with ivs within 7 bytes of 2 GiB, whose padded length does not fit into an `int` | as C09-C14, C28, C29, C68 with bit vectors of variable width; counting words by their low bits; induction over the iv, with Go's signed remainder |
| C91 | `Exponential.Next`, `Normal.Next`, `Uniform.Next` with zero, infinite, NaN and negative parameters | case analysis of the float operations; the range of the ziggurat's draw from C42/C43; negation commutes with rounding |
| C92 | `Uniform.Next` on ideal words (spec: `Verif/Spec/Uniform.lean`) | bound on the two roundings; counting the `m < 2^52` below a threshold; C72 for the joint distribution |
| C93 | `GenNext` of a `Ziggurat` with arbitrary fields on ideal words (spec: `Verif/Spec/UserZig.lean`: density, tables, tail law, limit) | the estimates of C70, for tables of any width, for any density and any tables that meet `IsZiggurat`, float error of the wedge test for any such table, limit of the recursion over the rounds; Laplace and exponential as instances |
| C94 | `XorCompose` of two sources that share nothing (`Spec/Pair.lean`), under `RNG.Uint64` | XOR of the two streams from the `XorCompose.Read` law; a period of the XOR, multiplied by `P`, is a period of `B` (and the other way round), so coprime periods multiply; counts by the Chinese remainder theorem; instances from C44/C48/C61/C74/C80; MT64 ⊕ MT64 by linearity of the twist and of the tempering over GF(2) |
| C95 | runs of one `RNG` or distribution method (`Spec/CallPeriod.lean`) | if `d` is a period then `P / gcd(P, d)` divides how often any result comes in `P` calls; by C80 some of these counts are powers of two and `P` is odd |
| C96 | runs of one method on an `LFG` (`Spec/CallPeriod.lean`) | modulo the recurrence `X^M = 1 + 2u` (evaluated), so `X^(M 2^j) = 1 + 2^(j+1) v_j`: bit `j+1` changes by the parity of `v_j s` over half its period; a period shorter than `M 2^b` would, by the certificates of C74 and two more, make the lowest bits satisfy a recurrence of low order |
| C97 | transition system of any number of goroutines sharing both channels (`Model/Yielders.lean`) | refinement: seen by one yielder each run is a run of the system of C32/C33; invariant counting the `quit` values; a measure that each unaided step decreases |
| C98 | `Periods` (`Spec/CallPeriod.lean`) of `Source.xor` | a period of the mixture makes lcm(T, Q) a period of the one part and lcm(T, P) of the other; LFG's period has 3^4 where the others have 3, all other primes are on one side only, so T is the lcm; generic in what the method keeps of the bytes read |
| C99 | `average`, `ofDraw` (`Spec/Moment.lean`) over all word lists | layer-cake formula: the average of f(X) is f(A) plus the integral of f' times P(X > t); C70/C71 bound P(X > t) for every t, C41/C42 bound the finite results, so the error is at most the variation of f times the error of the distribution function; the remaining integrals have antiderivatives |
| C100 | `landing` (`Spec/Landing.lean`), `shuffleSlice`, `shuffle`, `prob` | follow one element: once it is position k's turn the rest of the draws act as a bijection, so it ends anywhere with 1/n; behind the hand it stays with q per step or jumps to the hand with 1/n; induction on the steps gives the closed form; C73 in total variation for arbitrary sets of slices (`C73_shuffle_any`) carries it to the code; limits from (1-1/n)^n → 1/e |
| C101 | `wordsRead` (`Spec/Cost.lean`), `average` over all word lists | condition on the first word: `Uintn` solves a_(k+1) = 1 + rho a_k; for the ziggurat a word is accepted at once for exactly the sum of K[i] offsets (kernel computation over the shipped tables), otherwise the round costs two words or the tail, and a bound C with f + (1-f)(2+C) <= C is preserved by induction on the length; the normal tail accepts with at least 15/16 (C71) |
| C102 | `Source.select` (`Spec/Select.lean`), `Periods` (`Spec/CallPeriod.lean`) | if T is a period, shift by T P Q and use CRT to meet a place where A and B differ, giving N | T; then shift by lcm(T, Q) and meet places where S selects A, giving P | lcm(T, Q), and likewise for Q; the bits of short reads are those of the words (of every word, not every second, for Xoroshiro, whose period is odd) |
| C103 | `countBytes`, `byteTape` | turning over one bit of the tape is a bijection, so three bits at different places take each of their eight values equally often |
| C104 | `UintnEven` (`Spec/UintnEven.lean`), `timesReturned`, `CallPeriod` | by C80 every word but 0 comes 2^(N-64) times in a period and 0 once less; the results of `Uintn` are the accepted words in order (`Nat.nth` of the accepted places), so a period of the words with c accepted ones is c calls; the residues of the accepted words are counted over the fibres of mod |
| C105 | `average`, `ofDraw` (`Spec/Moment.lean`) | the draws depend on their word modulo 2^53 or 2^52 only; sums of squares by induction; rounding as in C92 |
| C106 | `timesInRow`, `EvenTuples` (`Spec/EvenTuples.lean`) | C45 and C62 count the full tuples of outputs; a tuple of method results is a product of sets of words, counted fibre by fibre |
| C107 | `ShuffleMisses`, `StringMisses`, `Misses` (`Spec/Misses.lean`) | the result is a function of the state (`Proofs/Fuel.lean`: more fuel never changes a result), and there are fewer states than permutations or texts |
| C108 | `places`, `EvenReads` (`Spec/EvenReads.lean`) | the even tuples of words of C106, read as byte strings: words and byte strings correspond one to one, a prefix fixes a fraction of them |
| C109 | `LowPatterns`, `BitsVary` (`Spec/LowPatterns.lean`) | modulo 2 the recurrence has a primitive factor of degree 187 (`LfgCert4`); its part of the low bits is a maximal-length sequence (`Proofs/MSeq.lean`), the rest has a period sharing little with it; Cauchy-Schwarz bounds every sum of signs, characters count patterns; bit b is balanced wherever its half period flips it; six words: counting |
| C110 | `Words`, `Rules`, `Turn`, `HistoryOk` (`Spec/History.lean`) | a simulation relation (model state, words to come, saved images) kept by each call, by induction on the history; the single-call facts are those of C01–C20 and C88 |
| C111 | `ReturnsSome`, `shareOf`, `ExponentialOver`, `NormalOver` (`Spec/PeriodDist.lean`) | what a call returns on ideal words it returns on a source that has these words ahead (`Proofs/Mimic.lean`, a simulation); C108 counts the states with given words ahead, C70/C71 give the ideal distribution, C70/C71/C101 bound how often the words do not suffice |
| C112 | `CallsOver`, `AllOccur` (`Spec/PeriodCalls.lean`) | as C111, with the law of C73 and, for the words that do not suffice, the exact probability `((B+1)/2^64)^m` of no rejection; for the occurrence, C108 applied to one list of words that are not all zero |
| C113 | `Apart`, `ShiftOf` (`Spec/Apart.lean`) | the states after the seedings differ (C50, C52, C63; for MT64 and LFG in the part that is used), and the map from states to the first k outputs is injective (the lowest bit of Xoroshiro satisfies the recurrence of C81, 4 outputs of Xoshiro are a bijection, MT64's and LFG's recurrences run backwards); the shift from the one cycle of C44, C48, C61 |
| C114 | `seedShare`, `probSeedings`, `Meet`, `cryptoTape` (`Spec/RandomSeed.lean`) | for a fixed beginning of the iv, the last 16 (32) bytes are mapped one to one to the states, hence onto them; counting; a state meets at most 2n-1 others in n steps, union bound over the pairs; C44/C48 (all states but zero on one cycle) for the comparison with a place in the period |
| C115 | `Quiet`, `Scheduler`, `Scheduler.Legal`, `Scheduler.play`, `coinShare`, `coinMean` (`Spec/Stopping.lean`): the transition system of `Model/Yield.lean` with an adversary that knows the past and a fair coin for each select where both cases can proceed (the uniform choice of the Go specification is an assumption here) | between selects nothing is sent, so j sends need the first j coins to fall one way; counting lists of coins; a scheduler with a receiver always waiting reaches the bounds; for several yielders `Spec/StoppingAll.lean` does the same for the system of `Model/Yielders.lean`: each select in which `quit` wins leaves one yielder fewer, so the coins' heads and tails count yielders gone and values sent; the mean of the number of selects is the sum of the tail probabilities |
| C116 | `BignOver` (`Spec/PeriodBign.lean`) | every read of the generator begins a new word, so `T` draws are a function of `T m` words (C108: evenly distributed over the period) and depend only on the first bytes of each group; each string of those bytes comes from equally many words; C89 for the bytes; results in and outside `S` bounded from below, and no state gives both |
| C117 | `shuffleTimes`, `fairShare`, `waysTo` (`Spec/Repeat.lean`) | a shuffle's choices reach every permutation (C30), so a share N!/N^N of them is exactly fair and the rest keeps fair what is fair: by induction on k the law is at least (1-(1-N!/N^N)^k) times the fair one, for a set and its complement; the calls follow the choices by C29 and the law of Uintn (C73, C112); unfairness by a prime factor of N-1, which divides N! but no power of N |
| C118 | `results`, `meanOf`, `shareIn`, `expect`, `standardised` (`Spec/Sample.lean`) | calls that read boundedly many words are independent also in the mean (`Reads.average_indep`), so the exponential moment of the sum is a power; Hoeffding's lemma for a coin from Mathlib's sub-Gaussian bound, convexity of exp for a result in [0,1], Markov; Chebyshev for the unbounded results with the moments of C99; the laws of one call from C70, C71, C73; the integral by comparing it with the sum over the 2^53 values |
| C119 | `prob`, `results`, `tokenBound` (`Spec/Prob.lean`, `Spec/Sample.lean`) | the exact law of `Uintn` (C70), with its one more value for residue 0, gives a bound on every set by a factor (`law_le`), where C73's is additive and useless for texts of probability 2^-128; induction over the letters; union bounds; for collisions the first result is conditioned on (`Reads.bound`) |
| C120 | `results`, `shareIn`, `AtMost`, `unitCdf` | the two-sided Chernoff bound of C118 for each set and one bound for the retries; distribution functions are monotone, so closeness at the k-1 quantiles j/k gives closeness everywhere up to 1/k (`grid`); the quantiles are explicit for the uniform and exponential distributions, and exist for the normal one because its distribution function is continuous |
| C121 | `Xoshiro.Fresh`, `xoshiroFirst` (`Spec/FirstDraw.lean`) | C76 gives the first word; it is below 2^63 and so accepted by `Uintn` for every max (C10); the kernel evaluates the ziggurat's accept tests for this word; LFG: C53 (only iv byte 0 counts) and the list of 256 representatives, for an arbitrary call |
| C122 | `Spec/SeedShare.lean` (`shareOfSeeds`, `FairSeeds`), `Props/SeedShare.lean` | Right after seeding the first words are an injective, hence by counting bijective, function of the seed (SplitMix64's mixing is injective; four outputs of Xoshiro determine its state). After `SeedIV` with enough random bytes every state is equally likely at every later time (C114), so four words in a row of Xoshiro, and each word of Xoroshiro, are ideal. A call that returns on a tape of those words returns the same after seeding (simulation of C111), and calls that need more words are as rare as on ideal words. |
| C123 | `Spec/PeriodSample.lean` (`GoodSamples`, `SamplesOver`), `Props/PeriodSample.lean` | The words read from the states of a period are even (C108), so an event on ideal words holds from the same share of states up to one state; a call that returns on the words returns the same on the generator (`SimR`); the events are those of C118 and C120. |
| C124 | `Props/MtLongIv.lean` | The sequence of C79 backwards: equal final arrays make the arrays after the key pass equal; there the key word of a step follows from three words of the sequence and the old word from the key word, and with at most 77 key words these two rules reach every key word by descending induction. The state has 311 free words, so over 2488 bytes two ivs collide by counting. |
| C125 | `Props/LfgLongIv.lean` | What the bytes add to the ring is a sum in which positions 607 apart (607 and 607*256 being 0 modulo 607) contribute alike. |

Documentation claims the code violates are not dropped: the property says what the code does, and the theorems
contain both the refutation (universally quantified where possible) and the strongest true replacement.
They are: C05 and C06 (`Xoroshiro` loses outputs), C11 and C18 (`Uintn`, `Bign` biased), C16 (`Big` clears a byte), C22 (one
`Int63` call too few), C26 (`Xoshiro` is no `Source64`), C31 (shuffles biased from length 3 on), C37 (`Uniform` is not `[Low,High)`),
C46 (`Jump` is 2^192 steps), C53-C55, C66 (`LFG`: iv bytes ignored, other recurrence, other period), C58 (`MT64.Restore`),
C62 (311 instead of 623 dimensions), C40 (doc comment on `W[0]`).

## How the hard proofs work

* Periods of Xoshiro, Xoroshiro (C44-C49): the step is GF(2)-linear on bit vectors; its characteristic polynomial annihilates the
  step (checked symbolically bit by bit), and `Proofs/XoCert` holds, for `c` = that polynomial, the residues `x^(2^k) mod c` and Bezout
  certificates `u*(x^((2^n-1)/p) - 1) + v*c = 1` for every prime `p` dividing `2^n-1` (Fermat factors, proved prime by Pratt
  style checks). Polynomials over GF(2) are `Nat`s (`Proofs/Gf2`, carry-less product by Kronecker substitution in `Proofs/Kron`), so
  every check is `decide +kernel` on `Nat` arithmetic. Nothing but the kernel's GMP-accelerated `Nat` operations is involved.
* LFG (C53-C56): the outputs satisfy a linear recurrence over Z/2^64; `x^335 = x^334 + 1` factors modulo 2 into polynomials of
  degrees 108, 187 (and 40); `Proofs/LfgCert` certifies `x^(2^34)` and the period modulo the recurrence.
* MT64 (C61, C62): `Proofs/MtLin` shows that the bits of the twisted sequence obey a linear recurrence with an explicit characteristic
  polynomial of degree 19937; `Proofs/MtCert1..4` check `x^(2^19937) = x` modulo it by 19937 squarings in 4 generated files of
  checkpoints; `Proofs/MersenneCert` proves that `2^19937-1` is prime by a Lucas-Lehmer run in the kernel. A prime period that is
  not 1 is the least period. Equidistribution follows because the map from effective states to 311 consecutive outputs
  and 33 more bits is a bijection and one period visits every non-zero effective state once.
* Ziggurat (C38-C42): the decimal constants of the tables are rounded by the model's own round-to-nearest-even; row facts are
  checked in the kernel for all 1024 layers (`ZigRows`, `ZigCert`), with interval bounds for `exp` and the Gaussian tail
  (`ExpCert`, `Mills`) proved against Mathlib's real `exp` and integrals, then lifted to all 2^53/2^54 offsets by monotonicity.

## Trusted base

* Lean's kernel (v4.33.0), including its built-in GMP arithmetic on `Nat` literals.
* Axioms: every theorem depends on a subset of `propext`, `Classical.choice`, `Quot.sound`. No axioms are added; no `native_decide`,
  no `bv_decide`. `decide +kernel` is used: it produces an ordinary term `of_decide_eq_true rfl` checked by the kernel.
* The faithfulness of the model: the definitions in `Verif/Model` were written from the Go text by hand (tables `lfgS0`, the ziggurat
  tables: copied by script), each with the lines it models. Nothing connects them to the compiled Go program.
* The generator scripts in `tools/` are not trusted: they print Lean files whose contents the kernel checks.

### Modelled

All non-test Go code of the package: `source.go`, `rng.go`, `util.go` (composed sources, adapters, shuffles, `RandString`, `CryptoSeeded`,
`SeedInt64`, `Yield`, `YieldUint64`), `lfg.go`, `mt64-19937.go`, `xoroshiro.go` (both types), `xoshiro.go`, `distr.go`, `ziggurat.go`, `expo.go`, `normal.go` with
all table entries. Parts of the Go language and library they use: run-time panics for index, slice bounds, division by zero,
negative `make`; `encoding/binary`, `copy`, `bits`, `io.Reader`/`io.Writer` with arbitrary replies, `math/big` as `Int`, `[]rune`/`string` conversion,
`float64` arithmetic (binary64, round to nearest even, two zeros, infinities, NaN), channels and `select` as a transition system.

### Simplified or not modelled

* `int`, `uint` are 64 bits wide, except in C90; lengths and counters are mathematical integers (no buffer of 2^63 bytes, no `int` overflow in `256*i` of
  `LFG.SeedIV` for an iv above 2^54 bytes); memory never runs out.
* `math.Log` and `math.Exp` are parameters (`MathLib`); where a property needs accuracy the hypothesis (`LogOk`: relative error `2^-50`,
  `Log(0) = -Inf`; `ExpOk`: relative error `2^-50` on [-32, 0]) is explicit in the theorem. Whether the compiler fuses `x*y+z` is a parameter for each of the three places that have this form.
* Unbounded loops take fuel. "Never returns" and "returns" are statements about all fuel / some fuel.
* A `Source` is a deterministic function on a world; it may share its world with others, panic, return short counts and errors, but a `Read`
  that blocks for ever is not represented, nor are data races: two goroutines using one generator at once (the package
  does not allow that) are outside the model. `Yield`'s goroutine is the only concurrency.
* `crypto/rand.Reader` is an arbitrary source (its errors are ignored by the code, as modelled).
* NaN payloads. `Uint64`-valued Go `int` conversions outside the ranges that occur.
* `ziggurat/ziggurat.py` (the offline table generator): its rounding (mpmath), the root finders, formatting and command line; `solve`'s function `mini` and `tables` are modelled in exact real arithmetic for C85. The test files and benchmarks.

## Testing the theorems

`seeded/LOG.jsonl` records edits of the model and which theorems failed. An edit is applied in a scratch copy; failing proofs are replaced
there one after the other until the copy builds, and the property theorems whose axioms then contain the placeholder are listed.
