#!/usr/bin/env python3
"""Writes /verif/properties.jsonl (kept as a script so the JSON is always well formed)."""
import json, os
P=[]
def add(title, statement, quantifier, why, *anchors):
    P.append(dict(id=f"C{len(P)+1:02d}", title=title, statement=statement, quantifier=quantifier,
                  why_tests_cant=why, anchors=list(anchors)))
GENS="LFG, MT64, Xoroshiro, Rexoroshiro, Xoshiro"
SEEDANCH=["lfg.go: LFG.SeedIV, LFG.Seed","mt64-19937.go: MT64.SeedIV, MT64.Seed","xoroshiro.go: Xoroshiro.SeedIV, Xoroshiro.Seed, Rexoroshiro.SeedIV","xoshiro.go: Xoshiro.SeedIV, Xoshiro.Seed","source.go: Seeder"]
add("Seeding is deterministic and forgets the past",
 "For each generator type ("+GENS+"): after SeedIV(iv) (or Seed(x)) the generator produces the same results for every later sequence of API calls, whatever its state and history before the call; two generators of the type seeded alike are indistinguishable.",
 "every iv of every length (including nil), every int64, every pair of prior states, every later call sequence",
 "the set of prior histories, ivs and later call sequences is unbounded; a test compares a few streams", *SEEDANCH)
add("Save then Restore reproduces the generator",
 "For each generator type: the bytes written by Save, restored into any generator of the same type (in any prior state), make it indistinguishable from the saved generator: all later API calls on the two return the same results.",
 "every state reachable from the constructor by API calls, every target state, every later call sequence",
 "needs all reachable states (ring positions, mid-block indices, unseeded, restored) and unbounded continuations",
 "lfg.go: LFG.Save, LFG.Restore","mt64-19937.go: MT64.Save, MT64.Restore","xoroshiro.go: Xoroshiro.Save/Restore, Rexoroshiro.Save/Restore","xoshiro.go: Xoshiro.Save/Restore","source.go: Saver")
add("Copy is an independent twin",
 "For each generator type: a Copy of a generator returns, for its own call sequence, exactly what the original would have returned, and calls on the copy never affect the original or any other generator (and vice versa), under every interleaving of calls.",
 "every state, every interleaving of calls on any number of generators and copies",
 "interleavings are unbounded; tests run original then copy once",
 "lfg.go: LFG.Copy","mt64-19937.go: MT64.Copy","xoroshiro.go: Xoroshiro.Copy, Rexoroshiro.Copy","xoshiro.go: Xoshiro.Copy","source.go: Copier")
add("Read fills the buffer with the output stream",
 "For each generator type: Read(p) returns n=len(p), nil error and overwrites all of p with the little-endian bytes of consecutive Uint64 outputs, the last word truncated; unused bytes of the last word are discarded. LFG, MT64, Rexoroshiro and Xoshiro advance by max(1, ceil(len/8)) outputs; Xoroshiro by floor(len/8)+1.",
 "every buffer length and initial contents, every generator state",
 "all lengths and states",
 "lfg.go: LFG.Read","mt64-19937.go: MT64.Read","xoroshiro.go: Xoroshiro.Read, Rexoroshiro.Read","xoshiro.go: Xoshiro.Read")
add("Block-aligned reads compose, except for Xoroshiro",
 "For LFG, MT64, Rexoroshiro and Xoshiro: reading a positive multiple of 8 bytes and then k>=1 bytes gives the same bytes and final state as one read of the total length (so a stream does not depend on how a reader blocks it). Xoroshiro does not have this property: there is a reachable Xoroshiro for which the split read gives other bytes, because its Read throws a word away after every aligned read.",
 "every split of every length, every state",
 "all splits and states",
 "lfg.go: LFG.Read","mt64-19937.go: MT64.Read","xoroshiro.go: Xoroshiro.Read, Rexoroshiro.Read","xoshiro.go: Xoshiro.Read")
add("RNG{g}.Uint64 is the generator's own output stream",
 "The k-th call of RNG{g}.Uint64() returns the k-th output of g.Uint64() (and Uint32/Uint16 its low bits) for LFG, MT64, Rexoroshiro and Xoshiro. For Xoroshiro, RNG.Uint64 returns every second output (outputs 0,2,4,...).",
 "every state, every number of calls",
 "unbounded call counts and states",
 "rng.go: RNG.Uint64, RNG.Uint32, RNG.Uint16","xoroshiro.go: Xoroshiro.Read","mt64-19937.go: MT64.Read","lfg.go: LFG.Read","xoshiro.go: Xoshiro.Read")
add("RNG integers are little-endian reads, silent on source failure",
 "RNG.Uint64/Uint32/Uint16 make exactly one Read of 8/4/2 bytes and return the little-endian integer of the buffer; bytes the source did not deliver count as zero and errors are ignored (a source that always fails yields 0 forever).",
 "every source, every reply (short, failing), every state",
 "all sources and replies",
 "rng.go: RNG.Uint64, RNG.Uint32, RNG.Uint16")
add("Int63 is a non-negative 63-bit value",
 "Int63 of LFG, MT64, Xoroshiro, Rexoroshiro and of the AdaptCrazy wrapper is in [0, 2^63-1]; it is the top 63 bits of the Uint64 output (low 63 bits for Rexoroshiro) and every value of the range is hit by exactly two outputs.",
 "every state / every 64-bit output",
 "2^64 outputs",
 "lfg.go: LFG.Int63","mt64-19937.go: MT64.Int63","xoroshiro.go: Xoroshiro.Int63, Rexoroshiro.Int63","util.go: crazy2math.Int63")
add("Uintn is in range and panics exactly on zero",
 "RNG.Uintn(max) returns a value < max for every max > 0 and every source; Uintn(0) panics before reading anything from the source.",
 "every max, every source and state, every number of rejections",
 "2^64 maxima and unbounded source behaviours",
 "rng.go: RNG.Uintn")
add("Uintn returns the first accepted draw reduced modulo max",
 "Uintn(max) consumes 64-bit draws until one is <= B where B is the largest multiple of max below 2^64, and returns that draw mod max; it consumes nothing else, and on a source that delivers no accepted draw it never returns.",
 "every max>0, every source, every draw sequence",
 "unbounded rejection sequences",
 "rng.go: RNG.Uintn")
add("Uintn's bias is one draw in favour of 0",
 "Let B be the largest multiple of max below 2^64. Each residue 0 < r < max is returned for exactly B/max of the 2^64 draws and residue 0 for exactly B/max + 1 (because the test is x > bad rather than x >= bad), so for every max >= 2 Uintn is not uniform even when 64-bit draws are.",
 "every max >= 1, every residue",
 "an off-by-one in 2^64 draws is invisible to sampling",
 "rng.go: RNG.Uintn")
add("Uintn accepts more than half of all draws",
 "For every max > 0, more than half of the 2^64 possible draws are accepted, so at most one expected retry; a draw of 0 is always accepted.",
 "every max > 0",
 "2^64 maxima times 2^64 draws",
 "rng.go: RNG.Uintn")
add("Uintn terminates on every bundled generator",
 "RNG{g}.Uintn(max) returns for every max > 0 and every state of g, for Xoshiro, Xoroshiro, Rexoroshiro, LFG and MT64 (no state makes the rejection loop spin forever).",
 "every generator state (including degenerate ones), every max > 0",
 "liveness over all 2^128..2^38848 states",
 "rng.go: RNG.Uintn","xoshiro.go: Xoshiro.Uint64","xoroshiro.go: Xoroshiro.Uint64","lfg.go: LFG.Uint64","mt64-19937.go: MT64.Uint64")
add("Intn range and panics",
 "RNG.Intn(max) returns a value in [0,max) for max > 0; it panics for every max <= 0, without reading from the source.",
 "every int max, every source", "2^64 maxima", "rng.go: RNG.Intn")
add("Big respects the bit length",
 "RNG.Big(nbits) returns a non-negative integer of bit length at most nbits for every nbits > 0 and every source, and panics for every nbits <= 0.",
 "every nbits, every source", "unbounded sizes", "rng.go: RNG.Big")
add("Big covers all nbits-bit numbers evenly unless nbits is a multiple of 8",
 "For nbits > 0 not a multiple of 8, every value in [0, 2^nbits) is returned by RNG.Big(nbits) for equally many of the byte strings read. When nbits is a multiple of 8 the most significant byte is always cleared (0xff >> 8): results are always below 2^(nbits-8), and Big(8) is always 0.",
 "every nbits > 0, every value", "all sizes and byte strings", "rng.go: RNG.Big")
add("Bign range and panics",
 "RNG.Bign(max) returns a value in [0,max) for every max > 0 and every source; it panics for max <= 0 without reading.",
 "every big integer max, every source, any number of rejections", "unbounded integers", "rng.go: RNG.Bign")
add("Bign's exact distribution",
 "With k = max.BitLen(): if k mod 8 = 7 every result of RNG.Bign(max) is below 2^(k-7) (always 0 for 64 <= max <= 127), these being equally frequent; otherwise all values 0 < r < max are returned for equally many accepted draws and 0 for exactly one more. So Bign is never uniform over [0,max) for max >= 2.",
 "every max > 0, every residue", "unbounded integers; rare or structural bias", "rng.go: RNG.Bign, RNG.Big")
add("XorCompose is the XOR of its sources",
 "XorCompose{A,B}.Read(p) reads len(p) bytes from A into p, then len(p) bytes from B into a zeroed buffer, and leaves the bytewise XOR in p, returning len(p), nil whatever A and B returned; sharing one source for A and B uses two consecutive reads.",
 "every pair of sources (independent, shared, short, failing), every buffer", "all sources and aliasings", "util.go: XorCompose.Read")
add("SelectCompose picks every bit from A or B",
 "SelectCompose{S,A,B}.Read(p) reads S, A, B in that order and sets each output bit to B's bit where S's bit is 1 and to A's bit where it is 0; returns len(p), nil.",
 "every three sources, every buffer, every bit", "all sources, bits", "util.go: SelectCompose.Read")
add("XOR with a fixed source is a bijection",
 "For fixed B output, XorCompose is a bijection of A's output (so composing with any independent source never reduces uniformity), and XorCompose of two copies of one generator is all zero bytes.",
 "every byte string length, every B", "all byte strings", "util.go: XorCompose.Read")
add("AdaptRand's reads from Int63, and its missing bit",
 "For a math/rand Source that is not a Source64, AdaptRand's Read is documented to use two Int63 calls per eight output bytes, one fewer when the length is not divisible by 8, to give a full distribution. What it does: the exact number of calls and bytes for every length; when the length is a positive multiple of 8 it too makes one call fewer than documented and the last bit of the buffer is always 0 (so RNG{AdaptRand(s)}.Uint64() < 2^63 always).",
 "every source, every length", "all lengths and sources", "util.go: AdaptRand, math2crazy.Read")
add("Adapter Read contract",
 "Read of the AdaptRand/AdaptRand64 adapters fills the whole buffer, returns len(p), nil; the Source64 adapter delivers the little-endian bytes of consecutive Uint64 outputs (max(1, ceil(len/8)) calls).",
 "every source, every length", "all lengths and sources", "util.go: math2crazy.Read, math642crazy.Read")
add("Adapter seeding uses only the first eight bytes",
 "SeedIV of the AdaptRand adapters calls Seed once with the little-endian int64 of the first eight bytes of iv (zero padded); any two ivs agreeing there seed identically, and SeedInt64 on an adapter seeds the underlying source with exactly that int64.",
 "every iv, every int64", "all ivs", "util.go: math2crazy.SeedIV, math642crazy.SeedIV, SeedInt64")
add("Adapters are transparent and compose to the identity",
 "AdaptRand/AdaptRand64/AdaptCrazy return the argument itself whenever it already has the wanted methods; AdaptCrazy(AdaptRand64(s)) has exactly s's Int63/Uint64/Seed behaviour and AdaptRand(AdaptCrazy(g)) exactly g's Read/SeedIV behaviour (not so for a plain Source: AdaptCrazy(AdaptRand(s)).Int63() is s.Int63()/2); the results always satisfy the promised interface.",
 "every object (any combination of implemented methods)", "all dynamic types and behaviours", "util.go: AdaptRand, AdaptRand64, AdaptCrazy, crazy2math, math2crazy, math642crazy")
add("All bundled generators but Xoshiro are math/rand Source64",
 "README says crazy's sources also implement rand.Source64. LFG, MT64, Xoroshiro and Rexoroshiro do, and AdaptCrazy returns them unchanged; Xoshiro has no Int63, is not a Source64 and is wrapped by AdaptCrazy.",
 "every bundled type", "a statement about every method set and the dispatch that depends on it", "README.md","xoshiro.go: Xoshiro","util.go: AdaptCrazy")
add("AdaptCrazy streams",
 "AdaptCrazy(g) for a g without Source64 returns Uint64 = little-endian of 8 bytes read, Int63 = that >> 1, Seed = SeedIV of the 8 little-endian bytes; for Xoshiro its Uint64 stream equals Xoshiro's own.",
 "every seeder, every state, every call sequence", "unbounded", "util.go: AdaptCrazy, crazy2math")
add("RandString draws only from the alphabet",
 "RandString(rng, alphabet, n) returns a string of exactly n runes, each occurring in []rune(alphabet); it panics iff n < 0, or n > 0 and the alphabet is empty. Holds for arbitrary (also invalid) UTF-8 alphabets, with each byte at which the encoding of no character begins acting as one U+FFFD.",
 "every alphabet byte string, every length, every source", "all strings", "util.go: RandString")
add("Shuffles permute",
 "Shuffle, ShuffleInts, ShuffleFloat64s, ShuffleStrings leave the data a permutation of the input, call Swap exactly Len() times as Swap(0,j0),Swap(1,j1),... with every index in [0,Len()), make exactly Len() Uintn calls, and never panic; empty data is untouched and consumes nothing.",
 "every slice, every source", "all lengths, sources", "util.go: Shuffle, ShuffleInts, ShuffleFloat64s, ShuffleStrings")
add("Shuffles can reach every permutation",
 "For every length n and every permutation there is a sequence of n draws below n that makes the shuffle produce it.",
 "every n, every permutation", "n! permutations for all n", "util.go: Shuffle, ShuffleInts, ShuffleFloat64s, ShuffleStrings")
add("Shuffles are uniform exactly up to length 2",
 "Every permutation of n distinct elements is produced by equally many of the n^n vectors of draws if and only if n <= 2 (for n >= 3 they cannot be split evenly, because the swap partner is drawn from the whole slice).",
 "every n", "statistical tests can only suspect bias, and only for small n", "util.go: Shuffle, ShuffleInts, ShuffleFloat64s, ShuffleStrings")
add("Yield delivers the stream in order without loss or duplication",
 "Under every schedule of the Yield/YieldUint64 goroutine, any number of receivers and any channel capacity: the values received, in order, followed by those in the channel and the one being offered, are exactly the first k values of the source, k being the number of draws; each is delivered to one receiver. Conversely every mixture of the first values, in order, with values others send on the channel can be what the receivers see.",
 "every schedule, capacity, receiver count, source", "schedules are unbounded", "util.go: Yield, YieldUint64")
add("Yield stops only on quit, and never blocks a quit",
 "The goroutine returns only after receiving from quit (or quit being closed) and never when quit is nil; whenever it is at its select and a quit value is available it can stop, whatever the receivers do; after it stopped, nothing more is drawn or sent and exactly one drawn value is lost. Closing quit is for good: every yielder on it can stop from then on, while a value sent on quit stops one only. With a nil over nothing is ever sent and at most one value is drawn.",
 "every schedule", "schedules are unbounded", "util.go: Yield, YieldUint64, StopYielding")
add("SeedInt64 and CryptoSeeded",
 "SeedInt64(src, x) calls SeedIV once with the 8 little-endian bytes of x (distinct x give distinct ivs); CryptoSeeded(src, n) calls SeedIV once with n bytes taken from crypto/rand and returns src itself, panicking iff n < 0.",
 "every int64, every n, every seeder", "2^64 seeds", "util.go: SeedInt64, CryptoSeeded")
add("Uniform1_2 is exactly 1 + m/2^52 with uniform m",
 "Uniform1_2.Next reads 7 bytes and returns the float64 1 + m/2^52 in [1,2) with m the low 52 bits read; every one of the 2^52 values is returned for exactly 16 of the 2^56 byte strings.",
 "every source, every byte string", "2^56 inputs", "distr.go: Uniform1_2.Next")
add("Uniform0_1 is exactly m/2^53 with uniform m",
 "Uniform0_1.Next reads 8 bytes and returns exactly m/2^53 in [0,1) with m the low 53 bits (no rounding anywhere); every value is returned for exactly 2^11 of the 2^64 words; 0 is possible, 1 is not.",
 "every source, every 64-bit word", "2^64 inputs; float rounding at the edges", "distr.go: Uniform0_1.Next")
add("Uniform is High*u + Low, not in [Low, High)",
 "Uniform{Low,High}.Next returns High*u + Low in float arithmetic (fused or not) with u = m/2^52 exact. For finite Low and High >= 0 the result is in [Low, fl(High+Low)], never NaN; the documented interval [Low, High) is kept for Low = 0 and normal High > 0, and its closure for Low <= 0; but for every 0 < Low with High <= 2^51*Low some byte string gives a result >= High, and Uniform{-1,1} is uniform on [-1,0).",
 "every Low, High, source", "all floats", "distr.go: Uniform.Next")
add("Ziggurat splits a 64-bit word into independent layer and offset",
 "GenNext uses the top 10 bits as layer and the low 54 bits (mirrored, two's complement) or low 53 bits (not mirrored) as offset: the mirrored split is a bijection uint64 -> [0,1024) x [-2^53,2^53), the other hits each pair exactly twice; the comparison value is |offset|; no table access is out of range.",
 "every 64-bit word", "2^64 words, sign-bit tricks", "ziggurat.go: Ziggurat.GenNext")
add("Ziggurat accept path is sound for the shipped tables",
 "For the shipped normal and exponential tables: a word whose offset is below K[i] makes GenNext return after that one word a finite number; for layers i >= 1 the height F[i-1] of the layer is at most the density at that number (up to a relative 2^-45), i.e. the accepted point of the layer's rectangle is under the curve, and in layer 0 the magnitude is at most x[1023]. Otherwise, for i >= 1, GenNext draws one uniform, compares the density with a height between F[i] and F[i-1] that is F[i]+u*(F[i-1]-F[i]) up to 2^-52, and |x| <= x[i]; it returns x if accepted and starts over otherwise. The sign of x is the sign of the offset.",
 "every source, every state, all 1024 layers times 2^54 (2^53) offsets, both tables, fused or unfused multiply-add, any math.Exp", "2^64 cases per table", "ziggurat.go: Ziggurat.GenNext","normal.go: normalK, normalW, normalF, normalR","expo.go: expoK, expoW, expoF, expoR")
add("Ziggurat tables have the documented construction",
 "For both distributions: W is finite, positive and strictly increasing over layers 1..1023, F strictly decreasing from F[0] = 1, F[i] = PDF(x[i]) up to a relative 2^-49 for the real density (x[i] = 2^53*W[i]), all areas x[i]*(F[i-1]-F[i]) equal the area of the base layer (rectangle plus the integral of the tail) up to a relative 2^-42, K[1] = 0, K[i] within 3 of 2^53*x[i-1]/x[i], K[0] within 1 of 2^53*x[1023]/x[0], where x[0] is the base area over F[1023] (the doc comment on W[0] says otherwise); expoR and normalR are x[1023] up to 2^-47.",
 "all 1024 layers of both tables", "a relation with a transcendental function at 2048 points; unit tests would compare floats with floats", "normal.go: normalK, normalW, normalF","expo.go: expoK, expoW, expoF","ziggurat/ziggurat.py: tables","ziggurat.go: Ziggurat")
add("Exponential variates are non-negative",
 "Exponential.Next with a finite rate > 0 is >= 0 or +Inf for every source (never NaN, never negative); if the rate is at least 2^-1000 it is at most 128/rate or it is +Inf, and then the last thing drawn was a uniform 0; a base-layer offset not below K[0] gives a draw of at least R or +Inf. (math.Log is assumed correct to a relative 2^-50, with Log(0) = -Inf.)",
 "every source, every state, every rejection history, every finite positive rate, fused or not", "rare paths (tail with zero uniform has probability 2^-53 * 2^-10)", "expo.go: Exponential.Next, expoTail","ziggurat.go: Ziggurat.GenNext")
add("Normal variates are sign-symmetric",
 "The ziggurat of the normal distribution mirrors: replacing the deciding word by the one of the same layer and opposite offset negates the result and consumes the same input, so of all n-word inputs as many yield exactly r as yield exactly -r, for every r that is not 0, not beyond R and not at the edge of a layer (offset -2^53 has no mirror image). A base-layer offset not below K[0] gives a magnitude of at least R (at most 64) or an infinity, with the offset's sign. Normal.Next with mean 0 and stddev 1 returns the ziggurat's number, and with finite mean and finite non-zero stddev is never NaN.",
 "every source, every word sequence, every rejection history, every mean and standard deviation, fused or not", "2^54 offsets times unbounded retries", "normal.go: Normal.Next, normalTail","ziggurat.go: Ziggurat.GenNext")
add("Xoshiro.Reverse is the exact inverse of a step",
 "Reverse after Uint64 restores the state and Uint64 after Reverse too, for every state; any number of Reverse calls undoes as many Uint64 calls.",
 "every 256-bit state, any number of steps", "2^256 states", "xoshiro.go: Xoshiro.Reverse, Xoshiro.Uint64")
add("Xoshiro has period 2^256-1",
 "From every non-zero state the state sequence of Xoshiro.Uint64 has least period exactly 2^256-1 and visits every non-zero state; the zero state is stuck. The output sequence has the same least period.",
 "every non-zero state", "2^256 steps", "xoshiro.go: Xoshiro.Uint64")
add("Xoshiro is 4-equidistributed",
 "In one period from any non-zero state every 4-tuple of consecutive 64-bit outputs other than the all-zero tuple appears exactly once, and the all-zero tuple does not appear.",
 "every state, every 4-tuple", "2^256 tuples", "xoshiro.go: Xoshiro.Uint64")
add("Xoshiro.Jump advances exactly 2^192 steps",
 "Jump leaves the generator in the state reached by 2^192 calls of Uint64, for every state.",
 "every 256-bit state", "2^192 steps cannot be run", "xoshiro.go: Xoshiro.Jump, xoshiroJump")
add("Jumped generators do not overlap",
 "Source comment: at least 2^64 subsequent jumps produce non-overlapping subsequences. Starting from any non-zero state, the 2^64 subsequences of length 2^192-1 beginning at the 0th..(2^64-1)th jump share no state; with length 2^192 the last one meets the first in exactly one state.",
 "every non-zero state, every pair of jump counts and offsets", "2^256 states", "source.go: Jumper","xoshiro.go: Xoshiro.Jump")
add("Xoroshiro has period 2^128-1",
 "From every non-zero state the state sequence of Xoroshiro.Uint64 (and Rexoroshiro's) has least period exactly 2^128-1 and visits every non-zero state.",
 "every non-zero state", "2^128 steps", "xoroshiro.go: Xoroshiro.Uint64, Rexoroshiro.Uint64")
add("Xoroshiro outputs are equidistributed",
 "In one period from any non-zero state every non-zero 64-bit output appears exactly 2^64 times and 0 appears 2^64-1 times.",
 "every non-zero state, every output value", "2^128 steps", "xoroshiro.go: Xoroshiro.Uint64")
add("Xoroshiro.SeedIV uses all bits of iv",
 "Changing any single 8-byte block of iv (same length) changes the seeded state; ivs of equal length up to 16 bytes give distinct states. (Limits, also proved: leading blocks may be permuted without effect, trailing zero padding is invisible.)",
 "every iv of every length, every block", "all ivs", "xoroshiro.go: Xoroshiro.SeedIV")
add("Exactly one short iv seeds the dead all-zero state",
 "SeedIV leaves Xoroshiro (Xoshiro) in a non-zero state for every iv shorter than 16 (32) bytes; among the ivs of exactly 16 (32) bytes there is exactly one that leaves the all-zero state, after which all outputs are 0.",
 "every iv", "one bad iv among 2^128 / 2^256", "xoroshiro.go: Xoroshiro.SeedIV","xoshiro.go: Xoshiro.SeedIV")
add("Xoshiro.SeedIV uses all bits of iv",
 "Changing any single 32-byte block of iv (same length) changes the seeded state; ivs of equal length up to 32 bytes give distinct states.",
 "every iv of every length, every block", "all ivs", "xoshiro.go: Xoshiro.SeedIV")
add("Which bits of iv LFG.SeedIV uses",
 "Doc: SeedIV initializes the generator using all bits of iv. It does not: bytes 1..272 of iv (and of every later group of 607) have no effect on any later output, so in particular Seed(x) depends only on the low 8 bits of x; changing any one other byte does change the output stream.",
 "every iv, every int64 seed, every later call", "equality of infinite streams for all ivs", "lfg.go: LFG.SeedIV, LFG.Seed, LFG.Uint64")
add("The recurrence LFG obeys, and the documented one it does not",
 "The outputs satisfy S[n] = S[n-1] + S[n-335] mod 2^64 for every reachable state and n >= 335; the documented recurrence S[n] = S[n-273] + S[n-607] fails for every reachable state that ever outputs anything but 0.",
 "every reachable state, every n", "all states and indices", "lfg.go: LFG.Uint64")
add("LFG's period is far below the documented one",
 "The output stream of every reachable state repeats after (2^108-1)*(2^187-1)*2^63 < 2^358 calls; the documented 2^670 - 2^63 is not a period of the output stream of any reachable state that ever outputs anything but 0.",
 "every reachable state", "periods far beyond any run", "lfg.go: LFG, LFG.Uint64")
add("LFG initial table provenance",
 "The seed table is the state of the algorithm after exactly 2^34 Uint64 calls starting from words 0,1,...,606.",
 "all 607 words after 2^34 steps", "2^34 steps; and the claim pins the algorithm that produced it", "lfg.go: lfgS0")
add("Generators never panic",
 "Starting from the constructors, no sequence of API calls (Uint64, Int63, Read, Seed, SeedIV, Save, Restore with any reader reply, Jump, Reverse) makes a generator index out of range or panic otherwise. (A zero-value LFG not made by NewLFG does panic, on its 608th output.)",
 "every call sequence, every argument", "unbounded histories", "lfg.go: LFG","mt64-19937.go: MT64","xoroshiro.go: Xoroshiro, Rexoroshiro","xoshiro.go: Xoshiro")
add("Restore is all or nothing, except for MT64",
 "LFG, Xoroshiro, Rexoroshiro, Xoshiro: if the reader reports a short count, Restore leaves the generator unchanged and returns the reader's count and error (nil if the reader gave none); otherwise the new state is the one encoded by the bytes. MT64 instead ignores the count: it installs a zero-padded state after a short read without error, and rejects a complete read that comes with io.EOF.",
 "every reader reply, every state", "all replies", "lfg.go: LFG.Restore","mt64-19937.go: MT64.Restore","xoroshiro.go: Xoroshiro.Restore","xoshiro.go: Xoshiro.Restore")
add("Save is a read-only, fixed-size, faithful encoding",
 "Save makes exactly one Write of 4856 / 2498 / 16 / 16 / 32 bytes, returns the writer's result, does not change the generator, and generators whose saved bytes are equal are indistinguishable; saving again after restoring gives the same bytes.",
 "every reachable state", "all states", "lfg.go: LFG.Save","mt64-19937.go: MT64.Save","xoroshiro.go: Xoroshiro.Save","xoshiro.go: Xoshiro.Save")
add("MT64 implements MT19937-64",
 "After Seed(x) the outputs of MT64 are the reference 64-bit Mersenne Twister sequence: tempered values of the sequence x_0 = seed, x_i = 6364136223846793005*(x_{i-1} ^ x_{i-1}>>62)+i (i<312), x_{k+312} = x_{k+156} ^ twist(x_k, x_{k+1}), in order from x_312.",
 "every seed, every output index", "unbounded stream", "mt64-19937.go: MT64.Seed, MT64.Uint64")
add("MT64 has period 2^19937-1",
 "From every MT64 state whose effective part (upper 33 bits of the first word of the block, and the other 311 words) is not zero and that has begun its block (as after every seeding), the outputs repeat with period q exactly when q is a multiple of 2^19937-1, so the least period is 2^19937-1; a state that has not begun its block does the same from its second output on. Seed(x) gives such a state for every x. A state with a zero effective part outputs zeros for ever.",
 "every state, every period length", "2^19937 steps", "mt64-19937.go: MT64, MT64.Uint64, MT64.Seed")
add("MT64 equidistribution in 311, not 623, dimensions",
 "From every such state, among the 2^19937-1 places of one period every tuple of 311 consecutive outputs occurs exactly 2^33 times (311 zeros: 2^33-1 times). The README's 623 dimensions do not hold for 64-bit values: in every run some tuple of 312 outputs never occurs, and for every length from 313 on some tuples are given by no state whatever.",
 "every state, every tuple", "2^19904 tuples, 2^19937 places", "README.md","mt64-19937.go: MT64.Uint64")
add("MT64.SeedIV uses all bits of iv",
 "ivs that differ after zero padding to whole 8-byte words, have the same number of words and at most 312 bytes give different states. (Across lengths collisions exist: the 8-byte iv a and the 16-byte iv (a, a-1) seed identically.)",
 "every pair of ivs", "all ivs", "mt64-19937.go: MT64.SeedIV")
add("Rexoroshiro is byte-reversed Xoroshiro",
 "Rexoroshiro's Uint64 outputs are the byte-reversed Xoroshiro outputs from the same state/seed, for every number of calls; its Read fills a buffer with the Xoroshiro outputs each written most significant byte first; seeds and saved states are interchangeable between the two types.",
 "every state, iv, number of calls", "all states", "xoroshiro.go: Rexoroshiro")
add("State updates are reversible",
 "The state update of Xoshiro, Xoroshiro/Rexoroshiro is a bijection of the state space (no two states merge, no stream enters a cycle it did not start on).",
 "every state", "2^128 / 2^256 states", "xoroshiro.go: Xoroshiro.Uint64","xoshiro.go: Xoshiro.Uint64")
add("LFG is not math/rand's generator reversed",
 "Doc: LFG is functionally the same generator as the Go standard library's, with a reversed output stream. The standard generator computes y[n] = y[n-273] + y[n-607]; the outputs of LFG read backwards fail this recurrence for every reachable state that ever outputs anything but 0.",
 "every reachable state, every index", "infinite streams for all states", "lfg.go: LFG, LFG.Uint64")
add("Seeding does not give a dead LFG or MT64",
 "After SeedIV with at most 607 bytes (LFG), and after Seed with any number, the first 335 outputs of LFG are not all zero. After SeedIV with at most 312 bytes MT64 has a nonzero effective part, so its outputs have least period 2^19937-1. A NewLFG or NewMT64 generator that was never seeded outputs zeros for ever.",
 "every iv up to that length, every seed, every previous state", "2^4856 ivs, streams of length 2^19937", "lfg.go: LFG.SeedIV, LFG.Seed, NewLFG","mt64-19937.go: MT64.SeedIV, NewMT64")
add("Shuffles and RandString return on every bundled generator",
 "ShuffleInts, ShuffleFloat64s, ShuffleStrings and Shuffle on a slice, and RandString with an alphabet that is not empty, return on Xoshiro, Xoroshiro, Rexoroshiro and MT64 from every state (the dead ones included) and on LFG from every reachable state: their rejection loops do not run for ever.",
 "every state, every slice, alphabet and length", "termination: unbounded loops", "util.go: Shuffle, ShuffleInts","util.go: RandString","rng.go: RNG.Uintn")
add("Exponential and Normal return on every bundled generator",
 "Exponential.Next and Normal.Next return on Xoshiro, Xoroshiro, Rexoroshiro and MT64 from every state, and on LFG from every state after SeedIV with at most 273 bytes (hence after every Seed), whatever was drawn since, and more generally from every reachable state from which the outputs do not repeat after half the period of C74, for every rate, mean and standard deviation (for Normal assuming that math.Log is accurate): neither the rejection loop of GenNext nor that of the normal tail runs for ever.",
 "every state, every parameter, fused or separate multiply-add", "termination: unbounded loops", "ziggurat.go: Ziggurat.GenNext","expo.go: Exponential.Next","normal.go: Normal.Next, normalTail")
add("Exponential has the exponential distribution",
 "If the source's words are independent and uniform, Exponential{Rate}.Next returns a value at most t with probability 1-e^(-Rate*t), up to 2^-31: for every n, of all sequences of 2n words the share on which it returns, within n rounds of the rejection loop, a value at most t differs from 1-e^(-Rate*t) by at most 2^-31+256^-n. It never returns a negative value, and the share on which it has not returned after n rounds is at most 256^-n. (Assuming math.Log and math.Exp are accurate to 2^-50.)",
 "every rate in [2^-900,2^900], every threshold, every number of rounds, fused or separate multiply-add", "a distribution over 2^(128n) inputs to an accuracy no sample reaches", "expo.go: Exponential.Next, expoTail","ziggurat.go: Ziggurat.GenNext")
add("Normal has the normal distribution",
 "If the source's words are independent and uniform, Normal{Mean, StdDev}.Next is normally distributed with that mean and standard deviation, up to 2^-31+(|Mean|/StdDev)/2^53: for every n, of all sequences of 2n words the share on which it returns, within n rounds of the rejection loops, a value at most t differs from the normal distribution's measure of (-inf,t] by at most 2^-31+(|Mean|/StdDev)/2^53+16^-n, and the share on which it has not returned after n rounds is at most 16^-n. (Assuming math.Log and math.Exp are accurate to 2^-50.)",
 "every mean of magnitude at most 2^900, every standard deviation in [2^-900,2^900], every threshold, every number of rounds, fused or separate multiply-add", "a distribution over 2^(128n) inputs to an accuracy no sample reaches", "normal.go: Normal.Next, normalTail, normalPDF","ziggurat.go: Ziggurat.GenNext")
add("Successive draws are independent",
 "If the source's words are independent and uniform, the results of successive calls on it are independent: for any sequence of the package's calls (Uint64, Uint32, Uint16, Uintn, Intn, Uniform0_1, Uniform1_2, Uniform, Normal, Exponential, shuffles, RandString, in any order and with any arguments) and any sets of results, the probability that every call returns with its result in its set is the product of the probabilities of the calls made alone. With the distribution of each (C70, C71): k draws of Normal or Exponential have as joint distribution function the product of the normal or exponential ones, up to the sum of the errors.",
 "every list of calls, all their arguments, all sets of results", "a joint distribution over all sequences of words", "rng.go: RNG.Uint64, RNG.Uint32, RNG.Uint16, RNG.Uintn, RNG.Intn","distr.go: Uniform0_1, Uniform1_2, Uniform","ziggurat.go: Ziggurat.GenNext","util.go: Shuffle","util.go: RandString")
add("Uintn, shuffles and RandString on ideal words",
 "If the source's words are independent and uniform, Uintn(max) is distributed over 0..max-1 with an exactly known law, within 2^-63+2^-(n+1) of uniform in total variation, n bounding the rejections; m successive calls are within m times that of m independent uniform numbers. So a shuffle of N distinct elements gives a permutation with probability c/N^N, c being the number of the N^N lists of swap partners that give it, up to N(2^-63+2^-(n+1)), which for N >= 3 is not the same for all permutations: some permutation is more probable than another by at least 1/N^N less those errors. RandString gives each string with the product of the relative frequencies of its runes in the alphabet, up to length*(2^-63+2^-(n+1)).",
 "every max, every set of results or lists of results, every slice of distinct elements, every alphabet, every rejection bound", "distributions over all sequences of words", "rng.go: RNG.Uintn","util.go: Shuffle, ShuffleInts","util.go: RandString")
add("LFG's exact period",
 "The outputs of every LFG generator repeat after P = ((2^108-1)/65)*(2^187-1)*2^63 calls (2^351 < P < 2^352), and for a generator seeded by SeedIV with at most 273 bytes or by Seed, whatever they are, the outputs repeat after n calls if and only if n is a multiple of P. More generally this is so for every reachable state whose outputs' low-order bits satisfy no linear recurrence of order 227 or less.",
 "every state, every iv up to that length, every seed, every n", "streams of length 2^351", "lfg.go: LFG.Uint64, LFG.SeedIV, LFG.Seed")
add("Xoroshiro, Rexoroshiro and Xoshiro are seeded from SplitMix64",
 "With an empty iv the saved state of Xoroshiro (Xoshiro) is the first two (four) outputs of the reference SplitMix64 started at 0. For every other iv the saved state follows the described procedure: for Xoroshiro, SplitMix64 absorbs all words but the last (zero-padded) one, outputs the second state word, absorbs the last word, outputs the first state word; for Xoshiro, each 32 bytes (or the last 1 to 31) are xored into the state after one Uint64 call per 8 bytes or part of them, followed by the next four outputs of SplitMix64.",
 "every iv of any length, every previous state", "ivs of unbounded length", "xoroshiro.go: Xoroshiro.SeedIV, Rexoroshiro.SeedIV","xoshiro.go: Xoshiro.SeedIV")
add("The first outputs after Seed; Xoshiro's first output ignores it",
 "After Seed(x), the first output of Xoroshiro and of Rexoroshiro is a bijective function of x: different seeds give different first outputs. For Xoshiro this fails: its first output after Seed(x), and after SeedIV with 1 to 8 bytes, is 0x3af8419d9287d417 whatever the seed; of an iv of up to 32 bytes only bytes 8 to 15 affect the first output. The second output after Seed(x) is a bijective function of x.",
 "every seed, every iv of up to 32 bytes, every previous state", "2^64 seeds, 2^256 ivs", "xoshiro.go: Xoshiro.SeedIV, Xoshiro.Uint64","xoroshiro.go: Xoroshiro.SeedIV, Xoroshiro.Uint64, Rexoroshiro.Uint64","util.go: SeedInt64")
add("Composed sources keep uniform bytes",
 "If the bytes that A and B deliver are independent and uniform, so are those of XorCompose{A,B}; and so are those of SelectCompose{S,A,B}, whatever bytes the selecting source delivers (they may be chosen by an adversary who does not see A and B). Counted exactly: each output of n bytes comes from 256^n of the 256^(2n) pairs.",
 "every n, every output, every selection", "distributions over all byte strings", "util.go: XorCompose.Read, SelectCompose.Read")
add("LFG after SeedIV is a known sequence",
 "After SeedIV(iv) on any generator, the outputs of LFG are words 335+4856+k, k = 0, 1, ..., of the sequence whose first 335 words come from the table and iv (byte i of value v adds table word (v+256i) mod 607 to word (i+334) mod 607, if there is one) and in which every later word is the sum of the one before and the one 335 places back. Seed(x) is SeedIV with the 8 bytes of x, low byte first.",
 "every iv of any length, every seed, every previous state, every number of outputs", "ivs and streams of unbounded length", "lfg.go: LFG.SeedIV, LFG.Seed, LFG.Uint64, lfgS0")
add("MT64.SeedIV exactly; it is not init_by_array64",
 "MT64.SeedIV with an empty iv is Seed(19650218). Otherwise, with the iv cut into 64-bit words (zero-padded), the saved array is the given sequence over positions 1 to 311: max(312, 8*words) steps mixing in the words and 311 steps subtracting the position, with position 0 left equal to position 311; the outputs are those of the Mersenne Twister from this array. This is not the published init_by_array64, although the steps look alike: on the key of the published test program the first output is 466416663805837154 instead of 7266447313870364031.",
 "every iv of any length, every previous state, every number of outputs", "ivs and streams of unbounded length", "mt64-19937.go: MT64.SeedIV, MT64.Uint64, MT64.Save")
add("Even results over a whole period",
 "Over 2^N-1 successive calls (N = 256 for Xoshiro, 128 for Xoroshiro and Rexoroshiro, 19937 for MT64), from any nonzero state, RNG.Uint64, RNG.Uint32, RNG.Uint16, Uniform1_2 and Uniform0_1 each return every possible value equally often, but the one for zero once less: 0 for the integers, 1.0 for Uniform1_2, 0.0 for Uniform0_1. For Xoroshiro this is so although RNG.Uint64 consumes two of its outputs per call.",
 "every nonzero (MT64: live) state, every value", "runs of 2^128 to 2^19937 calls", "rng.go: RNG.Uint64, RNG.Uint32, RNG.Uint16","distr.go: Uniform1_2, Uniform0_1","xoroshiro.go: Xoroshiro.Read, Rexoroshiro.Read","xoshiro.go: Xoshiro.Read","mt64-19937.go: MT64.Read")
add("Which output bits are linear recurring sequences",
 "The lowest bit of Xoroshiro's outputs (bit 56 of Rexoroshiro's) obeys a linear recurrence modulo 2 of order 128, the same for all states, and from no nonzero state one of lower order. Every bit of MT64's outputs obeys one and the same linear recurrence of order 19937, and none of lower order.",
 "every state (nonzero or live for the lower bound), every output bit of MT64, every order and all coefficients", "infinite bit sequences and all recurrences", "xoroshiro.go: Xoroshiro.Uint64, Rexoroshiro.Uint64","mt64-19937.go: MT64.Uint64")
add("How many outputs give the generator away",
 "All later outputs are determined by 4 successive outputs of Xoshiro, 335 of LFG or 312 of MT64, and not by one fewer; by the lowest bits alone of 128 outputs of Xoroshiro (bit 56 for Rexoroshiro), and not by two whole outputs; by any one bit of 19937 outputs of MT64.",
 "every pair of states (reachable for LFG; past the first output of a block for the bits of MT64)", "all pairs of states and infinite streams", "xoshiro.go: Xoshiro.Uint64","xoroshiro.go: Xoroshiro.Uint64, Rexoroshiro.Uint64","lfg.go: LFG.Uint64, LFG.Restore","mt64-19937.go: MT64.Uint64")
add("Linear complexity of the output bits",
 "Every bit b of Xoroshiro's outputs obeys a linear recurrence modulo 2 of order C(128,1)+...+C(128,b+1), the same for all states; for bit 1 this order, 8256, is the least; no bit above it obeys a recurrence of order below 16381 from a nonzero state. Rexoroshiro has the same bits with the bytes reversed, so its bits of order 128 and 8256 are 56 and 57 and every bit of its seven low bytes has order at least 16381. No bit of Xoshiro's outputs obeys a linear recurrence of order below 16381.",
 "every nonzero state, every output bit, every order and all coefficients", "infinite bit sequences and all recurrences", "xoroshiro.go: Xoroshiro.Uint64, Rexoroshiro.Uint64","xoshiro.go: Xoshiro.Uint64","README.md")
add("Recovery from poor states; longest runs of zeros",
 "LFG recovers slowly from small values: if 335 successive outputs, or the first 335 words of the saved state, are at most B, then the next 335 k outputs are at most B*336^k, so with B=1 it takes over 2000 outputs before the top bit is ever set. MT64 recovers slowly from a state with one nonzero word: of the next 156 k outputs at most (k+4)^2/4 are not zero (k up to 300). Xoshiro recovers quickly: from no nonzero state does it return more than three zeros in a row; Xoroshiro and Rexoroshiro return at most two, and two just once in a period; MT64 at most 311, and 311 do occur; 335 zeros in a row from LFG mean that it will return only zeros, 334 do not.",
 "every reachable state (nonzero or live where said), every bound B, every place in the stream", "infinite output streams from all states", "lfg.go: LFG doc comment, LFG.Uint64, LFG.Restore","mt64-19937.go: MT64 doc comment, MT64.Uint64","xoshiro.go: Xoshiro doc comment, Xoshiro.Uint64","xoroshiro.go: Xoroshiro.Uint64, Rexoroshiro.Uint64")
add("The program that makes the ziggurat tables",
 "For every continuous, strictly decreasing, positive and integrable function on [0, inf) and every number n >= 2 of segments there is exactly one ziggurat: n regions of equal area. The function whose root ziggurat.py looks for is negative to the left of that ziggurat's r, positive to the right and zero only there, and there the program returns its r, v and abscissas; the program's first guess is never to the left of r. The numbers k made of them are the last offsets that are not right of the layer above, so that a smaller offset may be taken without evaluating the density. The shipped constants expoR and normalR are the r of the one ziggurat with 1024 segments to within 2^-30, and the area of the shipped layers is its v to one part in 2^35.",
 "every such density, every n, every trial value r > 0, every layer and offset", "all densities, all real numbers; exact real arithmetic", "ziggurat/ziggurat.py: solve, mini, tables","expo.go: expoR, expoW, expoF","normal.go: normalR, normalW, normalF")
add("Bign returns on the bundled generators",
 "RNG.Bign(max) returns, that is, its rejection loop ends, for every max > 0 that can be allocated on Xoshiro, Xoroshiro, Rexoroshiro and MT64 from every state, also the zero state; on LFG from every reachable state for max < 2^63, and for every larger max for which the number of outputs that a draw takes has no factor in common with the period of C74. On every source one draw is enough if BitLen(max) mod 8 = 7.",
 "every state, every max", "non-termination cannot be observed by a test", "rng.go: RNG.Bign, RNG.Big","lfg.go: LFG.Read","mt64-19937.go: MT64.Read","xoroshiro.go: Xoroshiro.Read, Rexoroshiro.Read","xoshiro.go: Xoshiro.Read")
add("Every second output of LFG still takes a quarter of all values",
 "From any point of the stream on, the outputs of LFG at even distances take every 64-bit value with one certain remainder modulo 4, provided the outputs do not repeat after half the period of C74. This is so after SeedIV with at most 273 bytes and after every Seed, whatever was drawn since. (Exponential.Next and Normal.Next look at LFG two outputs at a time.)",
 "every reachable state that meets the condition, every point of the stream, every value with the remainder", "streams of length 2^358", "lfg.go: LFG.Uint64, LFG.SeedIV, LFG.Seed")
add("Every L-th output still takes all values",
 "Take every L-th output of a generator from any point on (leapfrogging among L workers; one field of records of a fixed size). Xoshiro, from a nonzero state: among the M=(2^256-1)/gcd(2^256-1,L) outputs of a round every word occurs M/2^64 times up to an error below 2^128, so for every L below 2^64 every word occurs. Xoroshiro and Rexoroshiro, for every L below 2^46: every byte of the outputs taken has all values. If L has no factor in common with the period, Xoshiro's 4-tuples and Xoroshiro's and Rexoroshiro's words are exactly as frequent as in the whole stream; for MT64 the 311-tuples are for every L that is not a multiple of the period.",
 "every nonzero (live) state, every starting point, every L, every value", "streams of length 2^128 and more, all L", "xoshiro.go: Xoshiro.Uint64","xoroshiro.go: Xoroshiro.Uint64, Rexoroshiro.Uint64","mt64-19937.go: MT64.Uint64")
add("Bign's distribution with its rejections",
 "If the source's bytes are independent and uniform, RNG.Bign(max), for max of k bits with k mod 8 other than 7, returns each 0 < r < max with probability (K/max)/(K+1) and 0 with (K/max+1)/(K+1), K being the largest multiple of max below 2^(k+1), each times the probability 1-(1-(K+1)/2^(k+1))^(n+1) that it returns with at most n rejections; so for every set of results it is within 2^-k+3^-(n+1) of uniform. If k mod 8 = 7 it is uniform over 0..2^(k-7)-1, less than a 63rd of the range.",
 "every max that can be allocated, every bound n on the rejections, every set of results", "a distribution over 256^((n+1)(k+8)/8) inputs", "rng.go: RNG.Bign, RNG.Big")
add("Platforms with 32-bit int",
 "The functions whose behaviour depends on the size w of int and uint are Uintn, Intn, Big, the shuffles, RandString and LFG.SeedIV. For every w up to 64: Uintn(max) returns the first draw whose low w bits do not exceed the largest multiple of max below 2^w, those bits reduced modulo max; it panics exactly for max = 0; more than half of all draws are accepted; the value 0 has 2^(64-w) draws more than each other value (on 32-bit platforms the bias is thus 2^32 times as large as C11's, relative to the draws); Intn(max) is Uintn(max) for max > 0 and panics otherwise; all of them return on every bundled generator; shuffles permute as in C29 and RandString draws from its alphabet as in C28. RandString panics for negative lengths and, before drawing anything, for lengths from 2^30 on on 32-bit platforms (386, arm) and above 2^46 on 64-bit ones; every other length it accepts. With w = 64 they are the functions of the other properties. Big on 32-bit platforms is the same for positive arguments; but a negative argument below -7, which panics on 64-bit platforms, returns a number of up to 2^32 + nbits bits. LFG.SeedIV on 32-bit platforms is the same for ivs of up to 8 MiB (2^23 bytes); for any longer iv, except those of one byte more whose last byte is 200, it panics with an index out of range.",
 "all widths up to 64 bits (for LFG.SeedIV from 32 bits on), all ivs, all sources, states, arguments and numbers of rejections",
 "tests run on one platform",
 "rng.go: RNG.Uintn, RNG.Intn, RNG.Big", "util.go: Shuffle, ShuffleInts, ShuffleFloat64s, ShuffleStrings, RandString", "lfg.go: LFG.SeedIV")
add("Special parameters of the distributions",
 "Zero, negative, infinite and NaN parameters are never rejected; what comes out is fixed. Exponential: Rate NaN gives NaN; Rate +-Inf a zero of that sign (NaN if the ziggurat drew +Inf); Rate +-0 the infinity of that sign, but NaN if it drew 0; the sign of Rate is the sign of the result. Normal: a NaN parameter gives NaN; StdDev +-0 gives the mean (NaN if the draw was infinite); StdDev +-Inf gives an infinity whose sign is the product of the signs, NaN if the draw was 0; an infinite mean is returned as it is (finite StdDev up to 2^900, finite draw). Uniform: a NaN parameter gives NaN; High +-0 gives Low; High +-Inf gives High, NaN if the draw was 0; infinite Low gives Low; reversing both signs reverses the sign of the result. The source is read exactly as with ordinary parameters.",
 "all sources, states, draws and parameters of the kinds listed; fused multiply-add or not",
 "the outcomes depend on draws of probability 2^-52 and less",
 "expo.go: Exponential.Next","normal.go: Normal.Next","distr.go: Uniform.Next")
add("Uniform has the uniform distribution on [Low, Low+High]",
 "If the source's words are independent and uniform, the probability that Uniform{Low,High}.Next returns at most t is that of the uniform distribution between Low and Low+High (High may be negative), up to 2^-49 + (|Low|/|High|)/2^52, for |High| between 2^-900 and 2^900 and |Low| up to 2^900. Successive draws, each with its own parameters, are jointly distributed as independent uniform variables up to the sum of these errors. (So it is not the distribution on [Low, High) that the documentation promises, unless Low = 0.)",
 "every Low and High in the range, every t, every number of draws; fused multiply-add or not",
 "a distribution over 2^52 values, and rounding for every pair of parameters",
 "distr.go: Uniform.Next, Uniform1_2.Next")
add("A ziggurat filled in by the user draws from the user's density",
 "Let f be a decreasing density (not normalised: 1 at 0 and nowhere steeper than 1) and let a Ziggurat be filled in for it as its fields' comments say: tables K, W, F correct up to rounding with no layer wider than some X (at most 2^18), a PDF accurate to 2^-49 and a Tail that draws from the part of f beyond the last abscissa up to an error d. If the source's words are independent and uniform, the probability that GenNext returns a value that is at most t tends, as more and more words are allowed, to the share of f's area up to t - for a mirrored ziggurat, of the area of f(|x|) - up to X(X+10)/2^38 (2^-30 for X = 11) + 2d times the share of the area that is beyond the last abscissa. Whatever is in the tables, GenNext returns with probability 1 if Tail does. For example, the exponential tables with Mirrored set give the Laplace distribution.",
 "every such density, every such table, every t; fused multiply-add or not", "all densities, all tables; a distribution over unboundedly many words",
 "ziggurat.go: Ziggurat, Ziggurat.GenNext")
add("XORing two sources together multiplies their periods and keeps their values even; XORing two MT64s gives only another MT64",
 "RNG{XorCompose{A, B}}.Uint64 returns the XOR of what RNG{A}.Uint64 and RNG{B}.Uint64 would return. If these repeat after P and after Q calls and P and Q have no factor in common, the composition repeats after exactly the multiples of P*Q calls (not earlier), and if A and B each return all the non-zero 64-bit words equally often over their period and zero once less, the composition returns all the non-zero words equally often over its period P*Q and zero once more. So Xoroshiro, Rexoroshiro, Xoshiro or a seeded LFG composed with a seeded MT64 has the product of the two periods. Two MT64s composed, on the other hand, give exactly the stream of one MT64 in some other state: the period stays 2^19937 - 1.",
 "every pair of sources that share no state and never fail, every pair of states, every number of calls, every 64-bit word; every live state of the bundled generators; every pair of MT64 states",
 "the periods are of the order of 2^20000 calls, so no test can observe a repetition or its absence, or count values over a period",
 "util.go: XorCompose.Read","rng.go: RNG.Uint64","mt64-19937.go: (*MT64).Uint64, (*MT64).Read","xoroshiro.go","xoshiro.go","lfg.go")
add("Every method and every single bit has the full period",
 "Let P be the period of the generator's outputs: 2^128-1 for Xoroshiro and Rexoroshiro, 2^256-1 for Xoshiro, 2^19937-1 for MT64. In a run of RNG.Uint64, RNG.Uint32, RNG.Uint16, Uniform1_2 or Uniform0_1 calls the results repeat after exactly the multiples of P calls, although these methods use only some bits of the outputs (and on Xoroshiro only every second output). The same holds for each of the 64 bits of the results of Uint64: no bit has a shorter period. And whatever predicate is applied to the results of Uint64, the outcomes do not repeat within P/2^64 calls, unless they are constant.",
 "every live state, every number of calls, every bit position, every predicate on 64-bit words",
 "periods of 2^128 calls and more, all predicates",
 "rng.go: RNG.Uint64, RNG.Uint32, RNG.Uint16","distr.go: Uniform0_1, Uniform1_2","xoroshiro.go: (*Xoroshiro).Read","xoshiro.go","mt64-19937.go")
add("The low bits of LFG's outputs have short periods, one factor of two for each bit",
 "After LFG.Seed, or SeedIV with at most 273 bytes, bit b of the outputs repeats after exactly the multiples of M*2^b calls, where M = (2^108-1)/65*(2^187-1); so RNG.Uint64 repeats after exactly the multiples of M*2^63 calls, RNG.Uint32 of M*2^31, RNG.Uint16 of M*2^15, Uniform1_2 of M*2^51 and Uniform0_1 of M*2^52: the methods that use the low bits only have a fraction of the generator's period. The same holds in every reachable state in which the lowest bits satisfy no linear recurrence of order 227 or less.",
 "every seed, every iv of at most 273 bytes, every previous state, every bit position, every number of calls",
 "periods of 2^288 calls and more",
 "lfg.go: (*LFG).Uint64, (*LFG).Read, (*LFG).SeedIV, (*LFG).Seed","rng.go: RNG.Uint64, RNG.Uint32, RNG.Uint16","distr.go: Uniform0_1, Uniform1_2")
add("Several yielders on the same channels: each stream arrives in order, each StopYielding stops exactly one, closing quit stops all",
 "Let any number of yielders (Yield or YieldUint64), each with a source of its own, be given the same over and the same quit channel. In every interleaving with each other, with receivers and with others who use the channels: the values of each yielder arrive in order, none lost and none twice; as long as quit is open the number of yielders that have returned plus the values still on offer on quit plus those others have taken equals the number of values offered, so n StopYieldings stop at most n yielders; left to themselves the yielders come to rest after at most two steps per free place in the channel and two per yielder, and then each has returned or panicked or waits with a value to send because over is full or nil and nothing can be received from quit; once quit is closed, at rest means that each has returned or panicked; and a yielder panics only if its source does or somebody closed over.",
 "every number of yielders, every source, every channel capacity including nil, every interleaving of any length",
 "all schedules of an unbounded concurrent system",
 "util.go: Yield, YieldUint64, StopYielding")
add("Composition with XorCompose keeps the period of every bit and every method, and repairs LFG's low bits",
    "For a seeded LFG composed by XorCompose with a live Xoroshiro, Rexoroshiro, Xoshiro or MT64, bit b of the results of RNG.Uint64 repeats exactly after the multiples of the least common multiple of the two periods of that bit: (2^108-1)/65 (2^187-1) 2^b (2^128-1)/3 calls with Xoroshiro or Rexoroshiro, (2^256-1)/3 in place of the last factor with Xoshiro and 2^19937-1 with MT64; Uint64, Uint32, Uint16, Uniform1_2 and Uniform0_1 have the period of the highest bit they keep. For Xoroshiro, Rexoroshiro and Xoshiro composed with MT64 every bit and every one of these methods has the product of the periods. Whatever two sources are composed, coprime periods of bits and methods multiply. Every bit of Xoroshiro or Rexoroshiro composed with Xoshiro repeats after 2^256-1 calls and only after multiples of 2^128+1.",
    "every seed iv of LFG of at most 273 bytes, every live state of the others, every bit, every number of calls",
    "the periods are between 2^289 and 2^20289 calls",
    "util.go: XorCompose.Read", "rng.go: Uint64, Uint32, Uint16", "distr.go: Uniform0_1, Uniform1_2", "lfg.go: LFG.Uint64", "xoroshiro.go", "xoshiro.go", "mt64-19937.go")
add("Mean and variance of Exponential and Normal",
    "If the source's words are independent and uniform, the numbers Exponential{Rate}.Next returns have the mean 1/Rate up to a relative 2^-22 and the mean square 2/Rate^2, hence the variance 1/Rate^2, up to a relative 2^-15 (2^-14); and x -> (x-Mean)/StdDev of the numbers Normal{Mean,StdDev}.Next returns has the mean 0 up to 2^-22 and the mean square 1 up to 2^-16, plus 2^9 (2^15) times |Mean|/StdDev/2^53. Here infinite results count as 0 (as the mean), and draws that take more than n rounds add to the bounds 2^8 (2^15) times 256^-n and 2^9 (2^15) times 16^-n.",
    "every rate and every standard deviation between 2^-900 and 2^900, every mean of magnitude at most 2^900 and 2^52 StdDev, every n, all (2^64)^(2n) inputs, every libm accurate to 2^-50, fused or not",
    "averages over 2^(128 n) inputs; a sample mean of a million draws shows three digits",
    "expo.go: Exponential.Next", "normal.go: Normal.Next", "ziggurat.go: Ziggurat.GenNext")
add("Where a shuffled element ends up",
"On a source of independent uniform words the shuffles take the element at position i of a slice of n distinct elements to position p with probability (q^i + q^(n-1-p)(1-q^i))/n if i <= p and (q^i + q^(n-1-p))/n if i > p, where q = 1-1/n, up to n(2^-63 + 2^-(k+1)) when each draw may be rejected k times. So the first element ends up everywhere, and the last position receives every element, with probability 1/n; but in a long slice the last element ends up last but one 1+1/e times as often as it should and first only 2/e times as often; no place is impossible or twice as probable as it should be.",
"every slice of distinct elements below 2^63, every pair of positions, every bound on the rejections",
"The biases are a few parts in n; a test would need millions of shuffles for each length and cannot give exact values.",
    "util.go: ShuffleInts", "util.go: ShuffleFloat64s", "util.go: ShuffleStrings", "util.go: Shuffle", "rng.go: RNG.Uintn")

add("How many words a draw costs",
    "On a source of independent uniform words Uintn(max) reads 2^64/(B+1) words on average, where B is the largest multiple of max below 2^64, so always less than two; m calls read at most m times as many, and just that in the limit of long sources; so a shuffle of N elements reads less than N(1+(N+1)/2^63) words on average, and RandString for m letters of an alphabet of a less than m(1+(a+1)/2^63); Exponential.Next reads just one word with probability exactly 9164127786790442472/2^63 = 0.99357 and at most 1.013 words on average, Normal.Next just one with probability exactly 18367855343147684327/2^64 = 0.99572 and at most 1.0092 on average, whatever their parameters.",
    "every max, every rate, mean and standard deviation, every length of the source, either rounding of the products (fused or not), every accurate math.Log",
    "averages over all sequences of words; a benchmark measures one machine and one seed",
    "rng.go: RNG.Uintn", "expo.go: Exponential.Next", "normal.go: Normal.Next", "ziggurat.go: Ziggurat.GenNext")

add("Composition with SelectCompose multiplies the periods",
    "Let S, A and B be sources that share nothing and never fail and let bit i of their reads repeat exactly after the multiples of N_i, P_i and Q_i reads. If N_i > 1 has no factor in common with P_i and Q_i, nor these with each other, and P_i differs from Q_i, bit i of SelectCompose{S,A,B} repeats exactly after the multiples of N_i P_i Q_i reads, and Uint64, Uint32, Uint16, Uniform1_2 and Uniform0_1 after those of the number for the highest bit they keep (provided the numbers grow with i by divisibility). For MT64 selecting between a seeded LFG and a live Xoroshiro, Rexoroshiro or Xoshiro, in either order, bit b has the least common multiple of the three periods, (2^19937-1) (2^108-1)/65 (2^187-1) 2^b (2^128-1)/3, with 2^256 in place of 2^128 for Xoshiro.",
    "every three sources; every seed iv of LFG of at most 273 bytes, every live state of the others, every bit, every number of calls",
    "the periods exceed 2^20300 calls",
    "util.go: SelectCompose.Read", "rng.go: Uint64, Uint32, Uint16", "distr.go: Uniform0_1, Uniform1_2", "lfg.go: LFG.Uint64", "xoroshiro.go", "xoshiro.go", "mt64-19937.go")
add("SelectCompose gives its parts away",
    "If the bytes of S, A and B are independent and uniform, each single bit of what SelectCompose{S,A,B}.Read delivers equals the bit A delivered in exactly three quarters of all cases and the bit B delivered in exactly three quarters, while it equals the bit of S in exactly half: although the result itself is uniform, it is correlated with both A and B.",
    "every length of the read, every byte and bit of it, all 256^(3n) bytes the sources can deliver, every previous content of the slice",
    "counts over 256^(3n) inputs",
    "util.go: SelectCompose.Read")

add("What Uintn and Intn return over a whole period",
    "Let B be the largest multiple of max below 2^64 and N = 128 for a live Xoroshiro or Rexoroshiro, 256 for a live Xoshiro and 19937 for a live MT64. One period of the generator makes exactly (B+1) 2^(N-64) - 1 calls of Uintn(max) on an RNG over it, after which the results come again, and among them every number from 1 to max-1 is returned exactly (B/max) 2^(N-64) times and 0 exactly 2^(N-64) - 1 times more. Intn(max) returns the same numbers.",
    "every max, every live state, every number below max",
    "the counts range over 2^128 to 2^19937 calls",
    "rng.go: RNG.Uintn", "rng.go: RNG.Intn", "xoroshiro.go", "xoshiro.go", "mt64-19937.go")

add("Mean and variance of the uniform distributions",
    "If the source's words are uniform, the numbers Uniform0_1.Next returns have exactly the mean 1/2 - 2^-54 and the variance (1 - 2^-106)/12, those of Uniform1_2.Next exactly the mean 3/2 - 2^-53 and the variance (1 - 2^-104)/12; those of Uniform{Low,High}.Next have the mean Low + High/2 - not (Low+High)/2 - up to d = |High|/2^49 + |Low|/2^52 and the mean square distance High^2/12 from it up to d(|High|+d).",
    "all 2^64 words; every finite Low and High with |Low| <= 2^900 and 2^-900 <= |High| <= 2^900, fused or not",
    "averages over all words; a sample mean shows a few digits",
    "distr.go: Uniform0_1", "distr.go: Uniform1_2", "distr.go: Uniform")
add("Tuples of successive results are even over a whole period",
    "In one period of a live Xoshiro (N = 256, D = 4) or MT64 (N = 19937, D = 311), every tuple of l <= D values is what l successive calls return at exactly 2^(N-kl) places, but the tuple of zeros (of ones for Uniform1_2) at one place less, where k = 64 for RNG.Uint64, 32 for Uint32, 16 for Uint16, 52 for Uniform1_2 and 53 for Uniform0_1. Xoroshiro and Rexoroshiro are not even in pairs: there are pairs of words that never come as two successive results of Uint64, called directly or through RNG.",
    "every live state, every l up to D, every tuple of values",
    "counts over 2^256-1 and 2^19937-1 places",
    "rng.go: Uint64, Uint32, Uint16", "distr.go: Uniform0_1, Uniform1_2", "xoshiro.go", "mt64-19937.go")

add("What the generators can never produce",
    "A slice of n different elements has orders that no shuffle brings it into, neither Shuffle nor ShuffleInts and its kin, whatever state the source is in, from n = 35 for a Xoroshiro or Rexoroshiro, 58 for a Xoshiro, 2086 for an MT64 and 3729 for an LFG; and if the source has just been seeded by Seed(x), from n = 21, but for an LFG from n = 6: LFG.Seed allows no program more than 256 outcomes. Likewise RandString misses some text of n letters of an alphabet of a different letters as soon as a^n exceeds 2^128, 2^256, 2^19984, 2^38858, and after Seed 2^64 and 256.",
    "every slice of different elements, every alphabet of different letters, every length beyond the bounds, every state reachable or seed",
    "that an order never comes is a claim about all 2^64 seeds and up to 2^38858 states",
    "util.go: Shuffle", "util.go: RandString", "lfg.go: LFG.Seed", "xoroshiro.go", "xoshiro.go", "mt64-19937.go")

add("Reads and big numbers over a whole period",
    "From the 2^N - 1 states of a period of a live generator, every call that reads at most 8D bytes gives each result exactly as often as ideally random bytes would, the result of reading zeros once less: Read gives every string of n bytes from 2^(N-8n) states; Big(nbits) every number below 2^nbits from 2^(N-nbits) states, or if nbits is a multiple of 8 every number below 2^(nbits-8) from 2^(N-nbits+8); and l <= D calls of RNG.Uint64 have any given property of l words from 2^(N-64l) times as many states as there are such words. N = 256 and D = 4 for Xoshiro, 19937 and 311 for MT64, 128 and 1 for Xoroshiro and Rexoroshiro.",
    "every live state, every length of the read up to 8D bytes, every content, every nbits up to 64D, every value, every property of words",
    "counts over all states of a period of 2^128 to 2^19937",
    "xoshiro.go: Xoshiro.Read", "mt64-19937.go: MT64.Read", "xoroshiro.go: Xoroshiro.Read, Rexoroshiro.Read", "rng.go: RNG.Big", "rng.go: RNG.Uint64")

add("How evenly the bits of LFG's outputs are spread",
    "After SeedIV with at most 273 bytes, or Seed, every pattern of the lowest bits of l <= 187 successive outputs of an LFG comes, in a period of M = (2^108-1)/65*(2^187-1) calls, M/2^l times up to M/2^88; so any 87 bits are at some point the lowest ones of 87 successive outputs. Each of the 64 bits, b say, is set in at least a fraction 1/4 - 2^-89 of its period of M*2^b calls, and clear in as many. But from no state at all does a run contain every sequence of six words, so LFG is not equidistributed in as little as 6 dimensions.",
    "every seed and every iv of at most 273 bytes (and every reachable state whose low bits obey no linear recurrence of order 227 or less), every l, every pattern, every bit; every reachable state for the last part",
    "counts over periods of 2^288 to 2^351 calls",
    "lfg.go: LFG.Uint64", "lfg.go: LFG.SeedIV", "README.md")

add("Whole histories of calls",
    "Whatever is called on a new generator, in whatever order - Uint64, Read, Seed, SeedIV, Save, Restore, and Int63, Jump or Reverse where the type has them - the results are exactly those of a machine that knows only the sequence of words still to come: Uint64 takes the next word; Read of n bytes takes max(1, ceil(n/8)) words (Xoroshiro floor(n/8)+1) and returns their little-endian bytes; Seed and SeedIV put a sequence in its place that depends on the argument alone; Save changes nothing; Restore of bytes that an earlier Save of this history wrote brings back the sequence of that moment; a Restore that the type refuses changes nothing and returns the reader's count and error; Int63 takes a word and drops its lowest bit (Rexoroshiro: its highest); Jump drops 2^192 words; Reverse puts the word before it back, which after a Uint64 is the word that was taken.",
    "every finite history of calls, with every argument, reader and writer, of each of the five generator types",
    "a test runs a few histories; this is a refinement for all of them",
    "lfg.go", "mt64-19937.go", "xoroshiro.go", "xoshiro.go")

add("Exponential and normal variates over a whole period",
    "Over the states of one period of a live generator, the share of those from which Exponential.Next on it returns a number up to t is 1 - e^(-rate t) up to e, and that of those from which Normal.Next does is the normal distribution's up to e + (|mean|/stddev)/2^53, for every t: e = 2^-30 for MT64; for Xoshiro 2^-15 and 2^-12; for Xoroshiro and Rexoroshiro 0.0065 and 0.0043. So not just ideal words but the generators themselves give these distributions. (math.Log and math.Exp are assumed correct to a relative 2^-50.)",
    "every live state, every t, every rate and standard deviation from 2^-900 to 2^900 and mean up to 2^900, fused or not",
    "a statement about all of 2^128 to 2^19937 states",
    "expo.go: Exponential.Next", "normal.go: Normal.Next", "ziggurat.go: Ziggurat.GenNext", "mt64-19937.go", "xoshiro.go", "xoroshiro.go")

add("Random numbers, shuffles and random strings over a whole period",
 "Over the states a live generator runs through in one period, with D = 311 for MT64 and 4 for Xoshiro: for every set S of lists, the share of the states from which m <= D successive calls of RNG{g}.Uintn(max) return a list in S is the share of S among all lists of m numbers below max, up to m(max+2)/2^64; for every set T of results, the share of the states from which ShuffleInts (or ShuffleFloat64s, ShuffleStrings) of n <= D elements ends in T is the share of the n^n lists of swap partners that lead to T, up to n(n+2)/2^64; the share of the states from which RandString gives a text of n <= D letters is the product of the letters' relative frequencies in the alphabet of a letters, up to n(a+2)/2^64. Every list of up to D numbers below max < 2^62, every order of up to D elements and every text of up to D letters of the alphabet is actually returned from some state of the period.",
 "every live generator state of MT64 or Xoshiro, every max, every number of calls up to D, every slice and alphabet, every set of results",
 "counts the states of a period of 2^256-1 or 2^19937-1; no run gets through it",
 "rng.go: RNG.Uintn, RNG.Intn","util.go: ShuffleInts, ShuffleFloat64s, ShuffleStrings, RandString","mt64-19937.go: MT64.Read","xoshiro.go: Xoshiro.Read")
add("Different seeds give different output streams, and how soon they differ",
 "After Seed with different seeds, the outputs of Xoroshiro and Rexoroshiro differ in the first call and those of Xoshiro in the second (never the first); those of MT64 differ within 312 calls; LFG has just 256 streams, by the seed modulo 256, and those differ within 335 calls. After SeedIV with different ivs of one length, of up to 16 bytes for Xoroshiro and Rexoroshiro (or any length if they differ in one 8-byte block), the outputs differ within 128 calls; up to 32 bytes (or one 32-byte block) for Xoshiro, within 4; up to 312 bytes for MT64, within 312; for LFG, ivs that differ in one byte that is used, within 335. And any two live Xoroshiros, Rexoroshiros, Xoshiros or MT64s produce the same cyclic sequence from different places: there is exactly one d below the period such that one's outputs are the other's after d calls, so seeding selects a place and not a sequence.",
 "all pairs of seeds, all pairs of ivs of the lengths stated, whatever was done with the generators before; all pairs of live states",
 "pairs of 2^64 seeds or 2^128 to 2^2496 ivs cannot be tried, nor a shift in a period of 2^128 or more found",
 "xoroshiro.go: Xoroshiro.Seed, Xoroshiro.SeedIV, Rexoroshiro.Seed, Rexoroshiro.SeedIV","xoshiro.go: Xoshiro.Seed, Xoshiro.SeedIV","mt64-19937.go: MT64.Seed, MT64.SeedIV","lfg.go: LFG.Seed, LFG.SeedIV")
add("What seeding with random bytes guarantees",
 "CryptoSeeded(g, L) seeds g with the next L bytes of crypto/rand and takes no others. If those bytes are independent and uniform, then: for Xoroshiro and Rexoroshiro with L = 16, 24, 32, ... and for Xoshiro with L = 32, 64, ..., after the seeding and any number n of calls every state is equally likely; each single output of Xoroshiro or Rexoroshiro is uniform, and any four successive outputs of Xoshiro are independent and uniform; k generators seeded so and used for n outputs each ever get into a common state (so that their streams overlap) with probability at most k^2 n/2^128 (Xoshiro k^2 n/2^256), e.g. 2^-48 for a million generators with 2^40 outputs each. Whatever one asks of a state has, after random seeding and n calls, the same probability as at a random place in the period, up to 2^-128 (2^-256); hence exponential, normal and bounded random numbers drawn from such a Xoshiro have their distributions with the errors of C111 and C112. Two MT64s seeded with L <= 312 random bytes each have the same outputs with probability 256^-L, only if the bytes are the same; but two LFGs with probability 1/256, however many bytes up to 273 are used (and 256^-(L-272) for L up to 607): of any 257 LFGs seeded with so few bytes two are in the same state.",
 "every number of bytes L of the stated kinds, every state before, every number of calls, every word or four words, every number of generators; every predicate of states",
 "statements about all 2^128, 2^256 or more ivs",
 "util.go: CryptoSeeded","xoroshiro.go: Xoroshiro.SeedIV, Rexoroshiro.SeedIV","xoshiro.go: Xoshiro.SeedIV")
add("How soon a yielder stops once told to",
 "If a receive from quit can proceed at every select statement the goroutine of Yield or YieldUint64 comes to (for instance because quit has been closed), and each select in which both cases can proceed is decided by a fair coin, as the Go specification says, then, whatever the receivers, the other senders and the scheduler do, knowing all that has happened: it sends j more values with probability at most 2^-j, on average less than one more, and it comes through k selects without returning with probability at most 2^-k. With a receiver that is always waiting these probabilities are exactly 2^-j and 2^-k, so there is no smaller bound, and none that is certain. The same holds for m yielders (Yield or YieldUint64) that share over and quit, the scheduler also choosing which of them comes to its select next: together they send more than j more values with probability at most that of more than j tails before the m-th head in tosses of a fair coin, on average at most m more, and some of them are left after k selects with probability at most that of fewer than m heads in k tosses, (1 + k + ... + C(k,m-1))/2^k; with a receiver that is always waiting these two probabilities are reached exactly. The mean number of selects until the last of them has returned is at most 2m (2 for one yielder), and exactly 2m with a receiver that is always waiting.",
 "every state, every source and channel, every number of selects, every scheduler and environment that may depend on the whole history, every outcome of the coins",
 "a probability over all coin sequences and all adversarial schedules",
 "util.go: Yield, YieldUint64, StopYielding")
add("Big random numbers over a whole period",
 "Over the states a live MT64 (or Xoshiro) runs through in one period, for a max of k bits with k not 7 modulo 8 and every set S of numbers: the share of the states from which RNG{g}.Bign(max) returns a number in S is the share of S among the numbers below max, up to 2^-k + 3^-T and one state, where T is any number of draws that fit into 311 (or 4) words, a draw being k/8+1 bytes in whole words; e.g. for a max of 256 bits on MT64 T = 62. But for a max of 7, 15, 23, ... bits the share is that of S among the numbers below 2^(k-7), which is less than max/63, up to one state.",
 "every live state, every max of up to 64 D - 8 bits, every set of results, any number of rejected draws",
 "counts the states of a period of 2^256-1 or 2^19937-1",
 "rng.go: RNG.Bign, RNG.Big","mt64-19937.go: MT64.Read","xoshiro.go: Xoshiro.Read")
add("Repeated shuffles become fair",
    "Shuffling a slice of N elements k times with ShuffleInts or its kin, on a source of independent uniform words, ends in any given set of results with the probability of a fair shuffle up to (1-N!/N^N)^k + kN(2^-63+2^-(r+1)) if each draw retries at most r times; the first term tends to zero as k grows. Over the states of a period of MT64 (kN at most 311) the same holds with error (1-N!/N^N)^k + kN(N+2)/2^64. But of N >= 3 elements no number of shuffles makes all orders equally likely: an order's probability is, up to the error of the draws, the number of choices of swap partners that lead to it over (N^N)^k, and these numbers are not all equal.",
    "all data, all numbers of shuffles, all sets of results, all permutations",
    "A test samples a few shuffles of a few sizes and cannot see a bias of N!/N^N relative size, nor its decay.",
    "util.go: ShuffleInts, ShuffleFloat64s, ShuffleStrings","rng.go: RNG.Intn, RNG.Uintn","mt64-19937.go: MT64.Uint64")
add("Long samples show the distribution: means, shares and Monte Carlo integrals",
    "Let any one call of the package (Uint64/32/16, Uintn, Intn, Uniform0_1, Uniform1_2, Uniform, Exponential, Normal, RandString, the shuffles), with fixed parameters, be made N times on a source of independent uniform words. For every number f in [0,1] made of a result, the mean of f over the sample is within e of what one call gives on average, and for every set S the share of results in S is within e of the probability of S for one call, except with probability 2exp(-2Ne^2) + N times the probability that one call runs out of its retries. So the share of Exponential results at most t is within e+2^-31+256^-r of 1-exp(-rate t), that of Normal within e+2^-31+|mean|/stddev 2^-53+16^-r of the normal distribution, that of Uintn in any set S within e+2^-63+2^-(r+1) of |S|/max; the mean over N results of Uniform0_1 of a function with Lipschitz constant L is within e+L/2^53 of its integral over [0,1]; and the mean of N Exponential (Normal) results is within e/rate (e stddev) of 1/rate (Mean) except with probability about 1/(N e^2).",
    "all calls and parameters, all functions and sets, all sample sizes, all tolerances",
    "A test draws one sample; how seldom samples mislead is a statement about all of them.",
    "distr.go: Uniform0_1.Next, Uniform.Next","expo.go: Exponential.Next","normal.go: Normal.Next","rng.go: RNG.Uintn, RNG.Intn, RNG.Uint64","util.go: ShuffleInts","ziggurat.go: Ziggurat.GenNext")
add("Random strings as tokens: guesses and collisions",
    "On a source of independent uniform words RandString of m letters from an alphabet of a letters (runes) returns a given text with probability at most the product of the shares of its letters in the alphabet, times (1+a/2^63)^m, however many retries the draws take. Hence, if no letter occurs in the alphabet more than c times, every text has probability at most b = (c/a (1+a/2^63))^m; K guesses, chosen in advance, hit the returned string with probability at most K b; and among N strings made one after the other two are equal with probability at most N(N-1)/2 b. E.g. 32 hexadecimal digits: a billion guesses hit with probability at most 10^-29, a million tokens collide with at most 10^-26.",
    "all alphabets, all lengths, all texts, all sets of guesses, all numbers of tokens, any number of retries",
    "Probabilities of 10^-26 do not show in tests.",
    "util.go: RandString","rng.go: RNG.Intn, RNG.Uintn")
add("The whole histogram and the whole distribution function of a long sample",
    "Of N calls of any one draw of the package on a source of independent uniform words, the shares of the results in k sets are all within e of the sets' probabilities for one call, except with probability 2k exp(-2Ne^2) + N times the probability that one call runs out of its retries; for Uintn all max residue shares are so within e+2^-63+2^-(r+1) of 1/max. And the empirical distribution functions, at all t together, are within e + 1/k + the error of a single draw of the distribution function of the uniform distribution on [0,1) (Uniform0_1) or [Low, Low+High) (Uniform), of 1-exp(-rate t) (Exponential) and of the normal distribution (Normal), except with probability 2(k-1) exp(-2Ne^2) + N times the probability to run out of retries, for every k.",
    "all calls and parameters, all families of sets, all real t at once, all sample sizes, tolerances and grids",
    "A test looks at one sample's histogram; that hardly any sample has a bad one is a statement about all samples.",
    "distr.go: Uniform0_1.Next, Uniform.Next","expo.go: Exponential.Next","normal.go: Normal.Next","rng.go: RNG.Uintn, RNG.Intn","ziggurat.go: Ziggurat.GenNext")
add("The first draw after seeding a Xoshiro is always the same, and an LFG gives one of 256 results",
    "Right after Seed, or SeedIV with 1 to 8 bytes, whatever the seed and whatever was done before, a Xoshiro's Read of any length begins with the same eight bytes; RNG{x}.Uint64 returns 0x3af8419d9287d417; Uintn(max) and Intn(max) return that number modulo max, for every max, without a second draw (so the first Intn(6) is 3 for every seed); Uniform0_1 returns the same number (about 0.758); Exponential and Normal return a number that depends on their parameters only; and every string of RandString begins with the same letter of the alphabet. Whatever is computed with an LFG after Seed (a number, a permutation, a string of any length), all seeds together give at most 256 different results; and so after SeedIV with ivs of one length up to 273 bytes.",
    "all seeds and short ivs, all previous states, all max, rates, means, alphabets and lengths; for LFG every computation",
    "2^64 seeds times all parameters cannot be tried; the claim for LFG ranges over all programs",
    "xoshiro.go: Xoshiro.Seed, Xoshiro.SeedIV","lfg.go: LFG.Seed, LFG.SeedIV","rng.go: RNG.Uintn, RNG.Intn, RNG.Uint64","util.go: RandString","expo.go: Exponential.Next","normal.go: Normal.Next","distr.go: Uniform0_1.Next")
add("Averaged over all seeds, the first draws after seeding are ideal",
 "Over the 2^64 seeds x of Seed(x), whatever the generator did before: the first RNG{g}.Uint64() of Xoroshiro and of Rexoroshiro is each of the 2^64 words for exactly one seed, so a first Uintn(max) falls into any set of numbers with the same share of seeds as an ideal one up to (max+1)/2^64, a first Exponential variate is at most t for a share 1-e^(-rate t) of the seeds up to 0.0065, a first Normal variate follows the normal distribution function up to 0.0043 and the rounding of the mean. With Xoshiro the first draw is the same for all seeds (C121), but after discarding one word the same holds. Over the 256^L ivs of L bytes (L = 32, 64, ...) for Xoshiro.SeedIV, any four words in a row, after any number of words before them, are ideal: lists of up to four random numbers, shuffles of up to four elements (with the bias of the algorithm, C117), random strings of up to four letters and exponential and normal variates (errors 2^-15, 2^-12) drawn from them follow their distributions; and over the ivs of L bytes (L = 16, 24, 32, ...) for Xoroshiro and Rexoroshiro every single word is ideal. It cannot go on like that: for any generator and any set of k seeds there are lists of m words that come with every seed, although m ideal words make one of them only with probability k/2^(64m).",
 "every state before seeding, every iv length and number of discarded words, every Uintn bound, every set of results, every data and alphabet, every rate, mean, stddev and threshold",
 "A test runs a few seeds; the claim is about the exact counts over all 2^64 (or 2^256) of them, and about calls that retry without bound.",
 "xoroshiro.go: Seed, SeedIV, Uint64, Read", "xoshiro.go: Seed, SeedIV, Uint64, Read", "rng.go: Uint64, Uintn", "util.go: Shuffle", "expo.go: Exponential.Next", "normal.go: Normal.Next")
add("Samples drawn from the states of a whole period of MT64",
 "From all but a stated share of the 2^19937-1 states of a period of MT64, a sample that takes up to 311 words shows the distribution: Monte Carlo integration of a Lipschitz function on [0,1] with n points is within e + L/2^53 of the integral except from a share 2 exp(-2 n e^2) of the states; the empirical distribution functions of n results of Uniform0_1, Exponential and Normal are near the true ones at all points at once, the shares of all the results of Uintn(max) near 1/max, with Hoeffding bounds. In general, whatever a call does on 311 or fewer ideal words with probability 1-b it does from all but a share b of the states of a period, and one state.",
 "every live MT64 state, every integrand, bound, rate, mean, stddev, tolerance and sample size, every call that uses up to 311 words",
 "The statement counts states of a period of 2^19937-1; a test sees a few of them.",
 "mt64-19937.go: MT64.Uint64, MT64.Read", "distr.go: Uniform0_1.Next", "expo.go: Exponential.Next", "normal.go: Normal.Next", "rng.go: RNG.Uintn")
add("MT64.SeedIV with long ivs",
 "MT64.SeedIV says it uses all bits of iv, which may be of any size. Up to 616 bytes it does: two ivs with the same number of 8-byte words that differ after zero padding leave different states and their first 312 outputs differ somewhere, so two MT64s seeded with the same number L <= 616 of random bytes each have the same outputs with probability 256^-L; and of all the ivs of one length L <= 616 at most one can leave a generator without the full period 2^19937-1. For ivs of any lengths the two generators are in the same state or differ within 312 outputs. Over 2488 bytes it cannot: for every length of 2489 bytes or more there are two different ivs of that length that leave the same state.",
 "every pair of ivs up to 616 bytes; every length over 2488 bytes; every previous state",
 "2^4928 ivs; that none of them share a state, or that some longer ones do, cannot be tried.",
 "mt64-19937.go: MT64.SeedIV, MT64.Seed, MT64.Uint64")
add("LFG.SeedIV with long ivs: bytes 607 places apart can be exchanged",
 "LFG.SeedIV says it uses all bits of iv, which may be of any size. Exchanging two bytes of an iv that stand 607, 1214, ... places apart never has any effect: the generators are in the same state. So for every length over 607 bytes there are ivs that differ in bytes which are used (C53) and seed the same state.",
 "every iv over 607 bytes, every position, every previous state",
 "all ivs, all lengths",
 "lfg.go: LFG.SeedIV")
out=os.path.join(os.path.dirname(__file__),'..','properties.jsonl')
with open(out,'w') as f:
    for p in P: f.write(json.dumps(p)+"\n")
for p in P: print(p['id'],p['title'])
