# A Lean 4 model of redox-ecc

## What is modelled and how

The Rust code is modelled function by function in `lean/Verif/Model/*.lean`.
Every definition cites the file and lines it models.

* **Panics** are explicit: `R α` is `ok a | panic why`. `Result` stays data (`R (Except DecodeError α)`).
* **BigInt / BigUint** (crates num-bigint, num-integer) are `Int` / `Nat`; the library calls used
  (`mod_floor`, `modpow`, `bits`, `to_bytes_*`, `from_bytes_*`, `to_u32_digits`, `parse_bytes`) are
  re-stated in `Model/BigInt.lean` from their documentation. They are part of the trusted base.
* **usize** is 64 bits; the one place where overflow can happen (`l - 1` in `iter_lr`) is modelled for both
  build profiles (`Profile.debug` panics, `Profile.release` wraps).
* **&mut self** becomes a returned value. Operator overloads (by value / by reference) all have one body and
  are modelled once. `Clone` is identity.
* **AtomicRefCell cache**: the borrow flag and the cached value are modelled as a state machine with threads
  (`Model/Cache.lean`, `Model/QuadCache.lean`; arbitrary programs of several threads in `Model/Threads.lean`); everywhere else `sqrt` uses
  the freshly computed constants, justified by C08 and C91.

Layers:

1. `Model/` – the code. No Mathlib algebra, only executable definitions.
2. `Spec/`  – small independent specifications (what "represents a group element" means; Mathlib's
   `WeierstrassCurve.Affine.Point` is the reference group for Weierstrass and Montgomery curves; the affine
   Edwards law is the reference for Edwards curves).
3. `Math/`  – pure algebra and number theory over an arbitrary field (RCB formulas, Montgomery formulas, Edwards
   group, SSWU/SVDW/Elligator identities, Pocklington, polynomial certificates).
4. `Proofs/` – links model and algebra: every well-formed element of GF(p) is `el z` for `z : ZMod p`, and every
   model operation on `el`s is `ok (el …)`.
5. `Props/` – the property theorems, one file per area, with non-vacuity examples beside them.
6. `Witness/` – each property theorem that has hypotheses, applied to concrete values (mostly the generators of the built-in curves and
   their doubles) with every hypothesis proved, so that no theorem is vacuous. `Base.lean` defines the points.
7. `Conformance.lean` – runs of the model, evaluated by the kernel, on the vectors of RFC 9380 and RFC 7748, on tabulated multiples of
   generators and on the unit tests of the repository. They are evidence for model fidelity, not properties.

## Trusted base

* Lean 4.33.0 kernel; axioms `propext`, `Classical.choice`, `Quot.sound` only (checked by `vcheck`). `AXIOMS.md` lists those of each
  theorem.
* Mathlib's definitions used in statements: `ZMod`, `Nat.Prime`, `IsSquare`, `WeierstrassCurve.Affine.Point` and
  its group structure.
* The reading of the Rust source (model fidelity) and of the num-bigint / num-integer documentation.
* Not modelled: memory apart from the reference count of a field (`Model/Memory.lean`, C81), timing apart from the sequences of group operations (`Model/Trace.lean`, C89) and of field operations (`Model/FieldTrace.lean`, `Model/CodecTrace.lean`, C108, C109, C114), criterion benches, the
  trait plumbing of `ops.rs` (`IntoFactory`, marker traits; each operator has one body), `version()`.
* `decide +kernel` is used for closed computations (primality certificates, parameter tables, witnesses): the kernel itself
  evaluates them (with its built-in GMP arithmetic on literals); no compiled code is trusted.
* `lean/Verif/Instances/*.lean` are generated files: certificates (Pocklington, doubling chains, polynomial
  identities). They are checked by the kernel, so the generator is not trusted.

## Per property plan

| id | model | proof |
|----|-------|-------|
| C01–C04 | `Model/PrimeField.lean` | ring homomorphism `ZMod p → FpElt`; Fermat for inversion |
| C05 | same | `ZMod` powers; reduction of the exponent mod p-1; witness for base 0 (refuted there, `_partial`) |
| C06, C07 | same | Euler's criterion; case p%4=3, p%8=5 (2 is a non-residue, √-1 formula) |
| C08 | `Model/Cache.lean`, `Model/Threads.lean` | invariant over op lists; concurrent schedule witness that panics (refuted, `_partial`); threads running arbitrary programs: safety, isolation of unshared fields, progress |
| C09–C11 | `Model/PrimeField.lean`, `Model/BigInt.lean` | parity; base-256 digits |
| C12 | `Model/PrimeField.lean`, `Model/BigInt.lean` | digits / radix parsing by induction on the literal |
| C13–C18 | `Model/QuadField.lean` | ring identities; refutations by small witnesses (inverse, pow, sqrt, is_square 0, sgn0) and exact characterisations |
| C19–C21 | `Model/Scalar.lean` | as the prime field; iterator state machine by induction |
| C22–C27 | `Model/Weierstrass.lean` | RCB formulas related to Mathlib's group law; exceptional locus P-Q of order 2 characterised |
| C28–C30 | same | sqrt + sgn0 + byte lemmas; refutation at the identity; exact decision table of `decode` |
| C31 | all curve models | unfolding |
| C32–C35 | `Model/Montgomery.lean` | map to Mathlib's curve y²=x³+ax²+x; exceptional locus y(P-Q)=s |
| C36–C40 | `Model/Edwards.lean` | completeness; associativity by ideal-membership certificates |
| C41–C44 | `Model/Maps.lean` | identities of the maps; multiplicativity of residuosity |
| C45–C48 | `Model/RationalMaps.lean` | polynomial certificates checked by the kernel; explicit witnesses for panics |
| C49–C51 | `Model/Instances.lean` | Pocklington certificates; gcd(x^p-x, cubic) certificates; kernel double-and-add; counting bound #E ≤ 2p+1 |
| C52 | all | structural induction over expressions |
| C53, C54 | `Model/Montgomery.lean`, `Model/Edwards.lean` | invariant (reduced coordinates, curve equation) over operation histories |
| C55 | `Model/Instances.lean` | comparison with the closed forms of the standards by the kernel |
| C56, C57 | `Model/QuadField.lean` | exact characterisation of division; grammar of the text form; refutations |
| C58, C59 | `Model/Instances.lean` | group orders from explicit torsion points and a counting bound; rank-two torsion for BLS12-381 |
| C60, C61 | field models | unfolding; byte length lemmas |
| C62 | `Model/PrimeField.lean`, `Model/BigInt.lean` | grammar of literals; both directions by induction |
| C63, C64 | `Model/Display.lean` | exact texts, in decimal digits (Props/TextProps.lean); injectivity of decimal text; witnesses for points |
| C65 | maps + instances | C41–C46 at the RFC 9380 constants, then C23/C32/C36 and C58 |
| C66 | codecs + instances | C28–C30, C34, C39, C40 at the named curves; witnesses at the identity |
| C67 | `Model/RationalMaps.lean`, `Math/IsoGrid.lean`, `Math/AddMap.lean` | the addition formula of the images is an identity in two variables of bounded degree, checked by the kernel on a grid larger than the degree (this determines it for all points); signs settled by an abstract lemma on maps additive up to sign |
| C68 | `Model/Instances.lean` | image of the isogeny and explicit torsion points give a multiple of the count, the bound 2p+1 and the absence of 2-torsion settle it |
| C69 | `Model/RationalMaps.lean`, `Math/Iso4Alg.lean`, `Math/Iso4Cert.lean` | the addition formula of the images as polynomial identities (ring certificates), degenerate pairs settled by an abstract lemma on maps additive outside coincidences; the dual is invariant under the point (-1, w) of order four and equals multiplication by four on the image of index two |
| C70 | `Model/Maps.lean`, `Math/Ell2.lean` | x1 determines u up to sign, and the two branches have disjoint images because -Z x (x + A) is a square on one side only; the count follows from the fibres |
| C71 | `Model/Maps.lean`, `Math/Fibres.lean` | each branch of the maps gives a quadratic equation for u^2 (or u), the sign rule halves the solutions; through the isogenies the bound is multiplied by the order of the kernel (C67) |
| C72 | `Model/*.lean` `Point.eq` | `==` decides equality in the reference group, so equivalence and congruence follow from the group law theorems; the products panic before the curves are compared |
| C73 | `Model/Scalar.lean`, `Spec/Expr.lean` | the profile is read in one place (`l - 1` in `iter_lr`); induction over expressions with a relation "equal, or the debug side overflows" |
| C74 | `Model/Scalar.lean` | induction on the number of calls; after the end the index (wrapped to 2^64 - 1 or equal to the length) stays out of range |
| C75 | `Model/Weierstrass.lean`, `Model/Montgomery.lean`, `Model/Edwards.lean` `Curve.ofParams`, `Model/Big.lean` | the parser characterisation of C62, extended to `BigUint::from_str`; kernel evaluation for the witnesses |
| C76 | `Model/Maps.lean` `Edwards.Ell2.map`, `Model/RationalMaps.lean` | C70 carried through the group isomorphism of C47 and the homomorphism of C69 with its four-element kernel |
| C77 | `Props/FlowProps.lean` `wAgree`, `mAgree`, `eAgree`: programs written only with the model's API | composition of C26/C33/C37, C28/C34/C39 and C30/C36/C41 |
| C78 | programs written with the model's API | C23, C26, C27 and their Montgomery and Edwards counterparts; the generator has order r |
| C79 | programs written with the model's API | C19 for the divisions, C23, C26, C27 and their counterparts |
| C80 | `Model/Maps.lean` `Montgomery.Ell2.map`, `Edwards.Ell2.map`; the programs of `Props/NamedMaps.lean` | the count of C70 and the group order of C59 give two images for every point by the pigeonhole principle; the dual isogeny of C69 has range of size r |
| C81 | `Model/Memory.lean`: strong count of one allocation, with the handles owned by the cache | invariant over histories: count = handles owned by the program + handles owned by the cache |
| C82 | `Model/Maps.lean`: the traits as structures of functions that may panic | case analysis on the checks, with C41_new and C43_new for the inner constructors |
| C83 | the scalar and point models of C19, C25, C33 and C37 | multiplication uses the representative in [0, r) (C25, C33, C37), so each law compares two integer multiples that differ by a multiple of r; the number of points (C59) settles the prime-order curves |
| C84 | an inductive predicate Api over the sum of all public value types, one constructor per public function (Spec/Api.lean) | induction over the history; each function re-checks the curve equation in new_proy_point, normalize is idempotent for every modulus |
| C85 | Edwards model with no assumption on a and d (EParams) | ring identities for the extended formulas over any commutative ring; case split on (d x1 x2 y1 y2)^2 = 1 |
| C86 | client and server as API calls in the order given (xBlind, Props/BlindProps.lean) | scalar action (C26, C33, C37), round trip (C28, C34, C39), inverse scalar (C19), injectivity of encoding |
| C87 | verifier as API calls (xDleq, Props/BlindProps.lean) | scalar action, addition and equality theorems; arithmetic modulo the prime order |
| C88 | prime-field and scalar model with arbitrary modulus | the inverse is the power n-2; a proper divisor of n is not invertible; the elements with the right inverse form a subgroup of the units |
| C89 | multiplication with a record of the calls (Model/Trace.lean), proved to be the multiplication when the record is forgotten | induction over the digits; injectivity of the sequence |
| C90 | point models of the three families | inverse of z; equality theorems C27, C32, C36; printing C64 |
| C91 | `Model/QuadCache.lean` | invariant over op lists and over schedules, as for C08; concurrent schedule witness that panics (refuted, `_partial`) |
| C92 | Montgomery point model | y = 0 iff A + A = 0; kernel evaluation of the witness |
| C93 | prime-field model with arbitrary modulus | idempotents of a modulus with two coprime factors; 1 + q^(k-1) modulo q^k; ZMod n is reduced |
| C94 | all curve, point, map and rational-map models | postconditions pushed through the monadic programs; ring identities over ZMod n for the meaning of the check |
| C95 | all curve, map and rational-map models | the field of every intermediate value is tracked through the programs |
| C96 | scalars, Point.mul, Point.add and identity of the three families; the protocol is a user program over them | scalars as residues; Lagrange interpolation at zero over ZMod r; the integer multiplication theorems C26/C33/C37 and the group laws |
| C97 | Point.mul, Point.add and identity of the three families | induction on the list |
| C98 | Point.encode, Curve.decode of both families | closed forms of encode and decode; the two roots have different parity |
| C99 | newScalar, Point.mul, Point.neg, Point.eq of the three families | the mul, neg and eq theorems; a finite group whose order is not divisible by r² has one subgroup of order r; the point counts of the named curves |
| C100 | newScalar, Point.mul of the three families | the mul theorems and division with remainder; the order of the groups of the 25519 curves is eight times a prime |
| C101 | Point.mulLoop, Point.mul of the two families | induction over the bits of the scalar with the exact addition theorems (C24, C32); the triple (0 : 0 : 0) absorbs doubling and addition; arithmetic of orders modulo 4 |
| C102 | the two Elligator 2 maps, addition and multiplication of both families | the numbers of images of C70 and C76, the number of points of C59, the theorem of Cauchy and Davenport of Mathlib |
| C103 | newScalar, Point.mul, Point.add, Point.eq of the three families | the mul, add and eq theorems; multiples of the generator and points killed by the cofactor meet only in the identity; C58 for the decomposition |
| C104 | the three Weierstrass maps, addition and multiplication | the numbers of preimages behind C71 counted per abscissa and parity, the kernels of the isogenies (C67) and of multiplication by the cofactor (C58, C68), the theorem of Cauchy and Davenport of Mathlib |
| C105 | decode, scalar multiplication, addition, equality and encode composed as in key agreement and signature checks | C29, C30, C35, C39, C40 and C98 give the accepted strings exactly; C25, C33 and C37 the products; C59 the order of the prime-order curves |
| C106 | decode of the three families as a predicate on byte strings | a bijection between points and accepted strings from C105 and the uniqueness of the encodings; the numbers of points from C59 |
| C107 | a program over lists that uses the modelled operations | C97 for the sum; for soundness the difference of the two equations and the primality of the order |
| C108 | the point operations with a record of the field operations called (Model/FieldTrace.lean) | each recorded function is followed operation by operation; induction over the digits; erasure of the record gives the original functions |
| C109 | the maps with a record of the field operations called (Model/FieldTrace.lean) | each recorded function is followed operation by operation; erasure of the record gives the original functions; for edwards25519 the ordinate of the Elligator image is zero for the input 0 only |
| C110 | programs that use the modelled operations (Props/Commit.lean) | group law and multiplication theorems of the three families; arithmetic of the integers modulo the prime order for the quotient |
| C111 | programs that use the modelled operations (Props/Commit.lean) | group law and multiplication theorems of the three families |
| C112 | programs that use the modelled operations (Props/Sign.lean) | round trips of C28, C34, C39 and C21, multiplication and addition theorems, arithmetic modulo the order |
| C113 | the point operations of the three families on arbitrary coordinates (Props/Hollow.lean) | closed forms of the operations with zero coordinates; the leading bit of a nonzero scalar is one; classification of the solutions of the homogeneous equations |
| C114 | encode and decode with a record of the field operations (Model/CodecTrace.lean) | erasure by definitional unfolding; rules for the recorded operations as for C108; case analysis of the decoders |
| C115 | programs that use the modelled operations (Props/Ecdsa.lean) | closed forms of encode and decode, division and multiplication theorems, arithmetic modulo the order; the RFC 6979 vector for P-256 is checked by evaluation in Witness/Ecdsa.lean |
| C116 | programs that use the modelled operations (Props/Feldman.lean) | induction over the coefficients with the multiplication and addition theorems; interpolation of C96 |
| C117 | decode, encode, neg and == of the three families | exact set of accepted strings (C105) and the encodings of C98; parity of opposite residues of an odd prime |
| C118 | programs that use the modelled operations (Props/Pok.lean) | group-law, multiplication and equality theorems; inverses modulo the prime order |
| C119 | the modelled decoders and point operations (Props/SmallOrder.lean) | one string per point (C105, C106); kernel and image of multiplication by the cofactor in a group of order r * h with r prime and h < r |
| C120 | the modelled operators run on an expression tree (Spec/Arith.lean, Props/ArithExpr.lean) | induction on the expression with C01, C03, C05, C13, C19; equal canonical elements have equal serialisations (C10, C21) |
| C121 | the modelled point and scalar operators run on a program tree (Spec/Programs.lean, Props/Programs.lean) | induction on the program with C23, C32, C36 (group law), C25, C33, C37 (multiplication), C120 (scalars), C27 and its analogues (equality) |
| C122 | clients as trees of operations over a record of operations (Spec/Client.lean), run on the modelled library and on the group | a simulation: every operation takes points that stand for group elements to such points and gives equal observations (C22, C23, C25, C27, C28, C30 and their analogues, C105); induction on the client |
| C123 | clients as trees of operations over a record of operations (Spec/FieldClient.lean, Spec/ScalarClient.lean), run on the modelled library and on ZMod; as threads with the cache of C08 (Spec/ClientThreads.lean) | a simulation: every operation takes the reduced representatives of residues to those of the result and gives equal observations (C01, C03, C05-C11, C19-C21, C63); induction on the client |

## Where the code does not have the property

For these the theorem `Cxx_…refuted…` proves the negation on a concrete input, and `Cxx_…_partial` proves what does hold.
Each is a statement about the code as it is in /repo.

| id | what fails |
|----|------------|
| C05 | `exp` reduces the exponent mod p-1, so 0 to a multiple of p-1 is 1 |
| C08, C91 | two threads calling `sqrt` on a shared field (prime or quadratic) at the same time can panic (AtomicRefCell double borrow), also when the cache is full: every call takes the exclusive borrow and recomputes the constants |
| C14, C56 | inverse and division in GF(p²): the conjugate's inverse is returned |
| C15, C16, C18 | power, square root, squareness of 0 and sign in GF(p²) |
| C20, C25, C33, C37 | multiplying by the zero scalar panics in debug builds (`l - 1` underflow) |
| C22, C28, C34, C66 | the identity cannot be normalised or encoded and decoded |
| C24 | adding points whose difference has order two yields (0:0:0), which is == to every point |
| C29, C35, C40 | `decode` panics on some byte strings instead of returning an error |
| C30, C66 | points with y = 0 have two compressed encodings |
| C32, C43 | Montgomery curves with b ≠ 1 (addition) and b ≠ ±1 (Elligator 2); Elligator 2 with a square Z, which the constructor accepts |
| C38 | `is_zero` of an Edwards point is also true for (0, -1) |
| C44 | Elligator 2 to EDWARDS448 gives (0,0,0,0) for u in {0, 1, -1} |
| C45, C46 | `push` of the isogenies ignores z and panics on the identity and on representatives that are not normalised; sixteen inputs make the BLS map panic |
| C47, C48 | the rational maps of 25519 and 448 at their exceptional points |
| C54, C85 | Edwards curves with square d (none in the library): sums at infinity, `normalize` of such a sum is off the curve, (0:0:0:0) is == to every point |
| C57, C64 | text of quadratic elements is not parseable; equal points print differently; curves over different fields print alike |
| C58, C59 | cofactor of BLS12381G1_11ISO; number of points of the two BLS12-381 curves |
| C72 | `==` of points of different fields panics; with (0:0:0) it is not transitive |
| C73, C74 | the zero scalar separates debug and release builds (see C20) |
| C75 | `Curve::from` checks nothing: parameters of no curve are accepted |
| C78, C79, C105 | protocol equations inherit the zero scalar panic of debug builds; a received signature with `s` a multiple of the order triggers it |
| C81 | for moduli 5 modulo 8 one square root makes the field own itself, so its memory is never freed |
| C92 | `is_two_torsion` requires z = 1: `(T + G) - G` on CURVE25519 with `T = (0,0)` is `==` to `T` and not reported; the normalised point at infinity is reported |
| C99 | `P * new_scalar(get_order()) == identity()` is no subgroup test: true everywhere in release, a panic everywhere in debug. `P * new_scalar(-1) == -P` is one |
| C100 | `P * new_scalar(k)` is not `k` times `P` outside the subgroup of the generator: on the 25519 curves no clamped secret (RFC 7748) gives the right multiple of a point with a component of order eight |
| C109 | the map to edwards25519 calls other field operations for the input 0 than for all other inputs |
| C113 | the values (0:0:0) and (0:0:0:0) of C24, C44, C48 and C101 are never rejected: every operation returns them again and they are == to everything, so a check in which one takes part accepts; hashing to EDWARDS448 gives one as soon as one input is 0, 1 or -1 |
