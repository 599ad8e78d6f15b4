import Mathlib.FieldTheory.IsAlgClosed.AlgebraicClosure
import Mathlib.Algebra.CharP.Frobenius
import Mathlib.Tactic.LinearCombination
import Verif.Math.Pocklington

/-! # The N+1 primality criterion (Lucas-Morrison) and a checker the kernel can run -/

namespace Redox.Pock

/-- Multiplication of `x₁ + x₂ √d` and `y₁ + y₂ √d` modulo `N`. -/
def mulQ (d N : ℕ) (x y : ℕ × ℕ) : ℕ × ℕ :=
  ((x.1 * y.1 + d * (x.2 * y.2)) % N, (x.1 * y.2 + x.2 * y.1) % N)

/-- Powers in the quadratic ring; `fuel` bounds the number of exponent bits. -/
def powQAux (d N : ℕ) (u : ℕ × ℕ) : (fuel : ℕ) → (e : ℕ) → ℕ × ℕ
  | 0, _ => (1, 0)
  | fuel + 1, e =>
    if e = 0 then (1, 0)
    else
      let h := powQAux d N u fuel (e / 2)
      if e % 2 = 1 then mulQ d N (mulQ d N h h) u else mulQ d N h h

def powQ (d N : ℕ) (u : ℕ × ℕ) (e : ℕ) : ℕ × ℕ := powQAux d N u (e.log2 + 1) e

section
variable {K : Type*} [Field K] {N d : ℕ}

/-- The value of a pair for a square root `s` of `d`. -/
def ev (s : K) (x : ℕ × ℕ) : K := x.1 + x.2 * s

variable (hN : (N : K) = 0) {s : K} (hs : s ^ 2 = d)
include hN hs

omit hs in
theorem cast_mod (n : ℕ) : ((n % N : ℕ) : K) = n := by
  conv_rhs => rw [← Nat.div_add_mod n N]
  push_cast; rw [hN]; ring

theorem ev_mulQ (x y : ℕ × ℕ) : ev s (mulQ d N x y) = ev s x * ev s y := by
  simp only [ev, mulQ, cast_mod hN]
  push_cast
  linear_combination (-(x.2 : K) * y.2) * hs

theorem ev_powQAux (u : ℕ × ℕ) : ∀ fuel e, e < 2 ^ fuel → ev s (powQAux d N u fuel e) = ev s u ^ e := by
  intro fuel
  induction fuel with
  | zero => intro e he; have : e = 0 := by omega
            subst this; simp [powQAux, ev]
  | succ k ih =>
    intro e he
    unfold powQAux
    split
    · next h => subst h; simp [ev]
    · have h2 : e / 2 < 2 ^ k := by rw [pow_succ] at he; omega
      have hh := ih _ h2
      simp only
      split
      · next h =>
        have he' : e = (e / 2 + e / 2) + 1 := by omega
        rw [ev_mulQ hN hs, ev_mulQ hN hs, hh]
        conv_rhs => rw [he', pow_succ, pow_add]
      · next h =>
        have he' : e = (e / 2 + e / 2) := by omega
        rw [ev_mulQ hN hs, hh]
        conv_rhs => rw [he', pow_add]

theorem ev_powQ (u : ℕ × ℕ) (e : ℕ) : ev s (powQ d N u e) = ev s u ^ e :=
  ev_powQAux hN hs u _ e Nat.lt_log2_self

end

/-- Lucas-Morrison: if `F | N+1`, `(F-1)² > N`, and each prime factor of `F` has a witness of norm 1 in the ring with
`√d` adjoined, then `N` is prime. -/
theorem lucas {N F d : ℕ} (hN : 1 < N) (hodd : N % 2 = 1) (hd : Nat.Coprime d N) (hF : F ∣ N + 1) (hF1 : 1 ≤ F)
    (hlt : N < (F - 1) ^ 2)
    (h : ∀ q, q.Prime → q ∣ F → ∃ u, (u.1 * u.1) % N = (d * (u.2 * u.2) + 1) % N ∧ powQ d N u (N + 1) = (1, 0) ∧
      Nat.Coprime ((powQ d N u ((N + 1) / q)).1 + (N - 1)) N) : N.Prime := by
  by_contra hnp
  have hl := Nat.minFac_prime (n := N) (by omega)
  have hlN := Nat.minFac_dvd N
  have hsq := Nat.minFac_sq_le_self (by omega) hnp
  generalize Nat.minFac N = l at hl hlN hsq
  haveI : Fact l.Prime := ⟨hl⟩
  obtain ⟨K, _, _, s, hs⟩ : ∃ (K : Type) (_ : Field K) (_ : CharP K l) (s : K), s ^ 2 = d := by
    obtain ⟨s, hs⟩ : ∃ s : AlgebraicClosure (ZMod l), s ^ 2 = d := IsAlgClosed.exists_pow_nat_eq _ (by norm_num)
    exact ⟨AlgebraicClosure (ZMod l), inferInstance,
      charP_of_injective_algebraMap (algebraMap (ZMod l) _).injective l, s, hs⟩
  have hNK : (N : K) = 0 := (CharP.cast_eq_zero_iff K l N).2 hlN
  have hl2 : l ≠ 2 := by rintro rfl; omega
  have h2 : (2 : K) ≠ 0 := by
    have : ((2 : ℕ) : K) ≠ 0 := by
      rw [Ne, CharP.cast_eq_zero_iff K l]
      intro h; exact hl2 ((Nat.prime_dvd_prime_iff_eq hl Nat.prime_two).1 h)
    simpa using this
  have hdK : (d : K) ≠ 0 := by
    rw [Ne, CharP.cast_eq_zero_iff K l]
    intro h
    have := Nat.dvd_gcd h hlN
    rw [hd] at this
    exact hl.one_lt.ne' (Nat.dvd_one.1 this)
  have hs0 : s ≠ 0 := by rintro rfl; exact hdK (by rw [← hs]; simp)
  have hcast : ∀ n : ℕ, (n : K) ^ l = n := fun n => by
    have := map_natCast (frobenius K l) n
    rwa [frobenius_def] at this
  have hsl : s ^ l = s ∨ s ^ l = -s := by
    have h1 : (s ^ l) ^ 2 = s ^ 2 := by rw [← pow_mul, mul_comm, pow_mul, hs, hcast]
    have : (s ^ l - s) * (s ^ l + s) = 0 := by linear_combination h1
    rcases mul_eq_zero.1 this with h | h
    · exact Or.inl (sub_eq_zero.1 h)
    · exact Or.inr (eq_neg_of_add_eq_zero_left h)
  have hfrob : ∀ u : ℕ × ℕ, ev s u ^ l = u.1 + u.2 * s ^ l := fun u => by
    rw [ev, add_pow_char, mul_pow, hcast, hcast]
  have hdvd : ∀ M, M ≠ 0 → (∀ u : ℕ × ℕ, (u.1 * u.1) % N = (d * (u.2 * u.2) + 1) % N → ev s u ^ M = 1) → F ∣ M := by
    intro M hM0 hM
    rw [Nat.dvd_iff_prime_pow_dvd_dvd]
    intro q k hq hqk
    rcases Nat.eq_zero_or_pos k with rfl | hk
    · simp
    obtain ⟨u, hu1, hu2, hu3⟩ := h q hq ((dvd_pow_self q hk.ne').trans hqk)
    have hnorm : ev s u * ev (-s) u = 1 := by
      have := congrArg (Nat.cast : ℕ → K) hu1
      rw [cast_mod hNK, cast_mod hNK] at this
      push_cast at this
      simp only [ev]
      linear_combination this - (u.2 : K) ^ 2 * hs
    have e1 : ev s u ^ (N + 1) = 1 := by rw [← ev_powQ hNK hs, hu2]; simp [ev]
    have e2 : ev s u ^ ((N + 1) / q) ≠ 1 := by
      intro h1
      have hs' : (-s) ^ 2 = (d : K) := by rw [neg_sq, hs]
      have h3 : ev (-s) u ^ ((N + 1) / q) = 1 := by
        have := congrArg (· ^ ((N + 1) / q)) hnorm
        simp only [mul_pow, one_pow, h1, one_mul] at this
        exact this
      rw [← ev_powQ hNK hs] at h1
      rw [← ev_powQ hNK hs'] at h3
      generalize powQ d N u ((N + 1) / q) = w at *
      simp only [ev] at h1 h3
      have hA : (w.1 : K) = 1 := mul_left_cancel₀ h2 (by linear_combination h1 + h3)
      have : ((w.1 + (N - 1) : ℕ) : K) = 0 := by
        rw [Nat.cast_add, hA, Nat.cast_sub (by omega), hNK]; simp
      have hd' := (CharP.cast_eq_zero_iff K l _).1 this
      have := Nat.dvd_gcd hd' hlN
      rw [hu3] at this
      exact hl.one_lt.ne' (Nat.dvd_one.1 this)
    have ho : orderOf (ev s u) ∣ N + 1 := orderOf_dvd_of_pow_eq_one e1
    have hno : ¬ orderOf (ev s u) ∣ (N + 1) / q := fun h => e2 (orderOf_dvd_iff_pow_eq_one.1 h)
    exact (pow_dvd_of_not_dvd_div hq (by omega) ho hno (hqk.trans hF)).trans (orderOf_dvd_of_pow_eq_one (hM u hu1))
  have hle : F ≤ l + 1 := by
    have hnorm : ∀ u : ℕ × ℕ, (u.1 * u.1) % N = (d * (u.2 * u.2) + 1) % N → ev s u * ev (-s) u = 1 := by
      intro u hu1
      have := congrArg (Nat.cast : ℕ → K) hu1
      rw [cast_mod hNK, cast_mod hNK] at this
      push_cast at this
      simp only [ev]
      linear_combination this - (u.2 : K) ^ 2 * hs
    rcases hsl with hsl | hsl
    · have := hdvd (l - 1) (by have := hl.two_le; omega) (fun u hu => by
        have hn := hnorm u hu
        have hu0 : ev s u ≠ 0 := left_ne_zero_of_mul_eq_one hn
        apply mul_left_cancel₀ hu0
        rw [← pow_succ', Nat.sub_add_cancel hl.one_le, hfrob, hsl, mul_one, ev])
      have := Nat.le_of_dvd (by have := hl.two_le; omega) this
      omega
    · have := hdvd (l + 1) (by omega) (fun u hu => by
        rw [pow_succ', hfrob, hsl]
        exact hnorm u hu)
      exact Nat.le_of_dvd (by omega) this
  have : (F - 1) ^ 2 ≤ l ^ 2 := Nat.pow_le_pow_left (by omega) 2
  omega

/-- One entry `(q, e, a, b)`: the prime power `q^e` divides `N+1` and `a + b √d` is the witness for `q`. -/
abbrev EntryL := ℕ × ℕ × ℕ × ℕ

def prodL : List EntryL → ℕ
  | [] => 1
  | (q, e, _) :: l => q ^ e * prodL l

def witsL (N d : ℕ) : List EntryL → Bool
  | [] => true
  | (q, _, u) :: l => (u.1 * u.1) % N == (d * (u.2 * u.2) + 1) % N && powQ d N u (N + 1) == (1, 0) &&
      Nat.gcd ((powQ d N u ((N + 1) / q)).1 + (N - 1)) N == 1 && witsL N d l

def checkL (N d : ℕ) (l : List EntryL) : Bool :=
  decide (1 < N) && N % 2 == 1 && Nat.gcd d N == 1 && (N + 1) % prodL l == 0 && decide (1 ≤ prodL l) &&
    decide (N < (prodL l - 1) ^ 2) && witsL N d l

theorem mem_of_dvd_prodL {q : ℕ} (hq : q.Prime) :
    ∀ l : List EntryL, (∀ t ∈ l, t.1.Prime) → q ∣ prodL l → ∃ t ∈ l, t.1 = q
  | [], _, h => absurd (Nat.dvd_one.1 h) hq.ne_one
  | (q', e, u) :: l, hl, h => by
    rcases hq.dvd_mul.1 h with h | h
    · have := hq.dvd_of_dvd_pow h
      have hq' := hl (q', e, u) (by simp)
      exact ⟨_, List.mem_cons_self, ((Nat.prime_dvd_prime_iff_eq hq hq').1 this).symm⟩
    · obtain ⟨t, ht, e⟩ := mem_of_dvd_prodL hq l (fun t ht => hl t (by simp [ht])) h
      exact ⟨t, by simp [ht], e⟩

theorem witsL_spec {N d : ℕ} : ∀ l : List EntryL, witsL N d l = true → ∀ t ∈ l,
    (t.2.2.1 * t.2.2.1) % N = (d * (t.2.2.2 * t.2.2.2) + 1) % N ∧ powQ d N t.2.2 (N + 1) = (1, 0) ∧
      Nat.Coprime ((powQ d N t.2.2 ((N + 1) / t.1)).1 + (N - 1)) N
  | [], _, _, ht => by simp at ht
  | (q, e, u) :: l, h, t, ht => by
    simp only [witsL, Bool.and_eq_true, beq_iff_eq] at h
    rcases List.mem_cons.1 ht with rfl | ht
    · exact ⟨h.1.1.1, h.1.1.2, h.1.2⟩
    · exact witsL_spec l h.2 t ht

/-- A checked certificate proves primality. -/
theorem prime_of_checkL (N d : ℕ) (l : List EntryL) (hl : ∀ t ∈ l, t.1.Prime) (h : checkL N d l = true) : N.Prime := by
  simp only [checkL, Bool.and_eq_true, decide_eq_true_eq, beq_iff_eq] at h
  obtain ⟨⟨⟨⟨⟨⟨h1, h2⟩, h3⟩, h4⟩, h5⟩, h6⟩, h7⟩ := h
  refine lucas h1 h2 h3 (Nat.dvd_of_mod_eq_zero h4) h5 h6 fun q hq hd => ?_
  obtain ⟨t, ht, rfl⟩ := mem_of_dvd_prodL hq l hl hd
  exact ⟨t.2.2, witsL_spec l h7 t ht⟩

end Redox.Pock
