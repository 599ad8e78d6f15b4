import Verif.Props.HashCover
import Verif.Props.MapFibres
import Verif.Props.BlsIsoCount

/-!
# C104: points reached by hashing to the Weierstrass curves

The maps to the Weierstrass curves hit at least about a quarter (simplified SWU) or a sixth (Shallue-van de Woestijne) of the multiples of the
generator once the cofactor is cleared, and adding the images of two inputs reaches at least twice that many, by the theorem of Cauchy and Davenport.
-/

set_option maxRecDepth 100000

namespace Redox.Props.Reach
open Pointwise

section
variable {G : Type*} [AddCommGroup G]

/-- Sums of `n` elements of a set of multiples of an element of prime order. -/
theorem sums {r : ℕ} (hr : r.Prime) (g : G) (hg : addOrderOf g = r) (T : Set G) (hT : ∀ A ∈ T, ∃ k : ℤ, A = k • g) (h0 : T.Nonempty) (n : ℕ) :
    ∃ W : Finset G, min r ((n + 1) * T.ncard - n) ≤ W.card ∧
      ∀ C ∈ W, ∃ l : List G, l.length = n + 1 ∧ (∀ A ∈ l, A ∈ T) ∧ C = l.sum := by
  classical
  have : Fact r.Prime := ⟨hr⟩
  have : NeZero r := ⟨hr.ne_zero⟩
  let f : ZMod r →+ G := ZMod.lift r ⟨zmultiplesHom G g, by
    have : (r : ℤ) • g = 0 := by rw [natCast_zsmul, ← hg, addOrderOf_nsmul_eq_zero]
    simpa using this⟩
  have fi : ∀ n : ℤ, f n = n • g := fun n => by simp [f]
  have finj : Function.Injective f := by
    rw [injective_iff_map_eq_zero]
    intro a ha
    obtain ⟨n, rfl⟩ := ZMod.intCast_surjective a
    rw [fi] at ha
    have := (Inst.smul_eq_iff hg (k1 := n) (k2 := 0)).1 (by rw [ha, zero_smul])
    rw [sub_zero] at this
    exact (ZMod.intCast_zmod_eq_zero_iff_dvd _ _).2 this
  let U : Finset (ZMod r) := Finset.univ.filter fun a => f a ∈ T
  have hU : f '' (U : Set (ZMod r)) = T := by
    ext A
    constructor
    · rintro ⟨a, ha, rfl⟩
      simpa [U] using ha
    · intro hA
      obtain ⟨n, rfl⟩ := hT A hA
      exact ⟨n, by simp [U, fi, hA], fi n⟩
  have e1 : T.ncard = U.card := by rw [← hU, Set.ncard_image_of_injective _ finj, Set.ncard_coe_finset]
  have hU0 : U.Nonempty := by
    obtain ⟨A, hA⟩ := h0
    rw [← hU] at hA
    obtain ⟨a, ha, -⟩ := hA
    exact ⟨a, ha⟩
  have key : ∃ V : Finset (ZMod r), V.Nonempty ∧ min r ((n + 1) * U.card - n) ≤ V.card ∧
      ∀ a ∈ V, ∃ l : List (ZMod r), l.length = n + 1 ∧ (∀ x ∈ l, x ∈ U) ∧ a = l.sum := by
    induction n with
    | zero => exact ⟨U, hU0, by simp, fun a ha => ⟨[a], rfl, by simpa using ha, by simp⟩⟩
    | succ n ih =>
      obtain ⟨V, hV0, hV, hl⟩ := ih
      refine ⟨U + V, hU0.add hV0, ?_, ?_⟩
      · have c := ZMod.cauchy_davenport hr hU0 hV0
        have p1 := hU0.card_pos
        have : (n + 1 + 1) * U.card = (n + 1) * U.card + U.card := by ring
        have hge : n + 1 ≤ (n + 1) * U.card := Nat.le_mul_of_pos_right _ p1
        generalize (n + 1) * U.card = s at *
        generalize (n + 1 + 1) * U.card = s' at *
        omega
      · intro a ha
        obtain ⟨x, hx, y, hy, rfl⟩ := Finset.mem_add.1 ha
        obtain ⟨l, hl1, hl2, rfl⟩ := hl y hy
        exact ⟨x :: l, by simp [hl1], by simpa using ⟨hx, hl2⟩, by simp⟩
  obtain ⟨V, -, hV, hl⟩ := key
  refine ⟨V.image f, by rw [Finset.card_image_of_injective _ finj, e1]; exact hV, ?_⟩
  intro C hC
  obtain ⟨a, ha, rfl⟩ := Finset.mem_image.1 hC
  obtain ⟨l, hl1, hl2, rfl⟩ := hl a ha
  refine ⟨l.map f, by simp [hl1], ?_, by rw [map_list_sum]⟩
  intro A hA
  obtain ⟨x, hx, rfl⟩ := List.mem_map.1 hA
  rw [← hU]
  exact ⟨x, hl2 x hx, rfl⟩

/-- A homomorphism that hits a subgroup of order `r` identifies at most `H` elements of a group of order `r * H`. -/
theorem hom_card {G0 : Type*} [AddCommGroup G0] [Finite G0] (ψ : G0 →+ G) (r H : ℕ) (hr0 : 0 < r) (hcard : Nat.card G0 = r * H) (A0 : G0)
    (ho : addOrderOf (ψ A0) = r) (S : Set G0) : S.ncard ≤ H * (ψ '' S).ncard := by
  classical
  have hle : AddSubgroup.zmultiples (ψ A0) ≤ ψ.range := by
    rw [AddSubgroup.zmultiples_le]
    exact ⟨A0, rfl⟩
  have : Finite ψ.range := Finite.of_surjective ψ.rangeRestrict ψ.rangeRestrict_surjective
  have hcr : r ≤ Nat.card ψ.range := by
    have := AddSubgroup.card_le_of_le hle
    rwa [Nat.card_zmultiples, ho] at this
  have hk := AddSubgroup.card_mul_index ψ.ker
  rw [AddSubgroup.index_ker, hcard] at hk
  set K := Nat.card ψ.ker with hK
  have hK0 : K ≠ 0 := Nat.card_pos.ne'
  have hKh : K ≤ H := by
    have : K * r ≤ r * H := by rw [← hk]; exact Nat.mul_le_mul_left _ hcr
    rw [mul_comm] at this
    exact Nat.le_of_mul_le_mul_left this hr0
  have hS : S.Finite := S.toFinite
  have hb := Finset.card_le_mul_card_image (f := ψ) (s := hS.toFinset) K (fun B _ => by
    have := EdMap.preimage_le ψ K hK.symm hK0 B
    have h2 : (({a ∈ hS.toFinset | ψ a = B} : Finset G0) : Set G0).encard ≤ K :=
      (Set.encard_le_encard fun a ha => by simpa using (Finset.mem_filter.1 ha).2).trans this
    rw [Set.encard_coe_eq_coe_finsetCard] at h2
    exact_mod_cast h2)
  rw [← Set.ncard_coe_finset, ← Set.ncard_coe_finset, Finset.coe_image, hS.coe_toFinset] at hb
  exact hb.trans (Nat.mul_le_mul_right _ hKh)

end

open Spec Weierstrass WLink

/-- Inputs are counted by abscissa and parity: `k` of them for each pair, `d` more for the abscissas in `E`. -/
theorem count {p : ℕ} [Fact p.Prime] (D : Finset (ZMod p)) (X : ZMod p → ZMod p) (k d : ℕ) (E : Finset (ZMod p))
    (h1 : ∀ x n, x ∉ E → {u : ZMod p | u.val % 2 = n ∧ X u = x}.encard ≤ k)
    (h2 : ∀ x n, {u : ZMod p | u.val % 2 = n ∧ X u = x}.encard ≤ (k + d : ℕ)) :
    D.card ≤ k * (D.image fun u => (X u, u.val % 2)).card + d * (2 * E.card) := by
  classical
  set I := D.image fun u => (X u, u.val % 2) with hI
  have hs := Finset.card_eq_sum_card_image (fun u : ZMod p => (X u, u.val % 2)) D
  have hb : ∀ a ∈ I, (D.filter fun u => (X u, u.val % 2) = a).card ≤ k + if a.1 ∈ E then d else 0 := by
    intro a _
    have hsub : ((D.filter fun u => (X u, u.val % 2) = a : Finset (ZMod p)) : Set (ZMod p)) ⊆ {u : ZMod p | u.val % 2 = a.2 ∧ X u = a.1} := by
      intro u hu
      have := (Finset.mem_filter.1 hu).2
      exact ⟨by rw [← this], by rw [← this]⟩
    split_ifs with hE
    · have := (Set.encard_le_encard hsub).trans (h2 a.1 a.2)
      rw [Set.encard_coe_eq_coe_finsetCard] at this
      exact_mod_cast this
    · have := (Set.encard_le_encard hsub).trans (h1 a.1 a.2 hE)
      rw [Set.encard_coe_eq_coe_finsetCard] at this
      rw [add_zero]
      exact_mod_cast this
  have h3 := Finset.sum_le_sum hb
  rw [Finset.sum_add_distrib, Finset.sum_const, smul_eq_mul, ← Finset.sum_filter, Finset.sum_const, smul_eq_mul] at h3
  have h4 : (I.filter fun a => a.1 ∈ E).card ≤ 2 * E.card := by
    have : (I.filter fun a => a.1 ∈ E) ⊆ E ×ˢ Finset.range 2 := by
      intro a ha
      obtain ⟨ha, hE⟩ := Finset.mem_filter.1 ha
      obtain ⟨u, -, rfl⟩ := Finset.mem_image.1 ha
      exact Finset.mem_product.2 ⟨hE, Finset.mem_range.2 (Nat.mod_lt _ (by norm_num))⟩
    have := Finset.card_le_card this
    rw [Finset.card_product, Finset.card_range] at this
    omega
  rw [hs]
  refine h3.trans ?_
  rw [mul_comm k]
  exact Nat.add_le_add_left (by rw [mul_comm]; exact Nat.mul_le_mul_left _ h4) _

/-- Mapping every input, adding up and clearing the cofactor. -/
def wHashAll (prof : Profile) (e : Curve) (map : FpElt → R Point) (us : List FpElt) : R Point := do
  let S ← us.foldlM (fun S u => do S.add (← map u)) (← e.identity)
  S.mul prof (← e.newScalar e.getCofactor)

section
variable {p : ℕ} [Fact p.Prime] {e : Curve}

theorem clear_returns (hv : WValid p e) (h0 : 0 < e.h) (hlt : e.h < e.r) (prof : Profile) {P : Point} {B : (wGroup p e).Point} (hP : WDenotes p e P B) :
    WReturns p e (do P.mul prof (← e.newScalar e.getCofactor)) (e.h • B) := by
  have hr1 : 1 ≤ e.r := by omega
  simp only [R.ok_bind, Curve.newScalar, scalar_new_eq e.r hr1, Curve.getCofactor]
  rw [Int.emod_eq_of_lt (by omega) (by exact_mod_cast hlt)]
  have := C25_mul_partial _ _ hv.curve hv.complete hv.order_bits prof P B hP ⟨e.h, e.r⟩
    ⟨rfl, by simp, by simpa using hlt⟩ (Or.inl (by simp only [ne_eq]; omega))
  rwa [natCast_zsmul] at this

theorem fold_returns (hv : WValid p e) (map : FpElt → R Point) :
    ∀ (l : List (FpElt × (wGroup p e).Point)) (_ : ∀ a ∈ l, WReturns p e (map a.1) a.2) (S : Point) (A : (wGroup p e).Point) (_ : WDenotes p e S A),
      WReturns p e ((l.map (·.1)).foldlM (fun S u => do S.add (← map u)) S) (A + (l.map (·.2)).sum) := by
  intro l
  induction l with
  | nil => intro _ S A hS; exact ⟨S, rfl, by simpa using hS⟩
  | cons a l ih =>
    intro hl S A hS
    obtain ⟨P, hP, hPd⟩ := hl a (by simp)
    obtain ⟨S', hS', hSd'⟩ := (C23_group_law p e hv.curve hv.complete S P A a.2 hS hPd).1
    have := ih (fun b hb => hl b (List.mem_cons_of_mem _ hb)) S' _ hSd'
    simp only [List.map_cons, List.foldlM_cons, List.sum_cons, hP, hS', R.ok_bind, ← add_assoc]
    exact this

theorem pull_list {map : FpElt → R Point} : ∀ (l : List (wGroup p e).Point)
    (_ : ∀ A ∈ l, ∃ u, Canon p u ∧ ∃ B, WReturns p e (map u) B ∧ e.h • B = A),
    ∃ q : List (FpElt × (wGroup p e).Point), q.length = l.length ∧ (∀ a ∈ q, Canon p a.1 ∧ WReturns p e (map a.1) a.2) ∧
      e.h • (q.map (·.2)).sum = l.sum := by
  intro l
  induction l with
  | nil => intro _; exact ⟨[], rfl, by simp, by simp⟩
  | cons A l ih =>
    intro hl
    obtain ⟨u, hu, B, hB, h⟩ := hl A (by simp)
    obtain ⟨q, h1, h2, h3⟩ := ih fun C hC => hl C (List.mem_cons_of_mem _ hC)
    refine ⟨(u, B) :: q, by simp [h1], ?_, ?_⟩
    · intro a ha
      rcases List.mem_cons.1 ha with rfl | ha
      · exact ⟨hu, hB⟩
      · exact h2 a ha
    · rw [List.map_cons, List.sum_cons, List.sum_cons, nsmul_add, h, h3]

/-- From a number of images to the numbers of points reached by one, two and `n` inputs. -/
theorem reach (hv : WValid p e) (h0 : 0 < e.h) (hlt : e.h < e.r) (map : FpElt → R Point) (g : (wGroup p e).Point) (hg : addOrderOf g = e.r)
    (hcl : ∀ B : (wGroup p e).Point, ∃ k : ℤ, e.h • B = k • g)
    {G0 : Type*} [AddCommGroup G0] [Finite G0] (ψ : G0 →+ (wGroup p e).Point) (H : ℕ) (hcard : Nat.card G0 = e.r * H) (A0 : G0)
    (ho : addOrderOf (ψ A0) = e.r) (S : Set G0) (hS : ∀ A ∈ S, ∃ u, Canon p u ∧ ∃ B, WReturns p e (map u) B ∧ e.h • B = ψ A)
    (t : ℕ) (ht0 : 1 ≤ t) (ht : H * (t - 1) < S.ncard) (prof : Profile) :
    min e.r t ≤ {A | ∃ u, Canon p u ∧ WReturns p e (do (← map u).mul prof (← e.newScalar e.getCofactor)) A}.ncard ∧
    min e.r (2 * t - 1) ≤ {A | ∃ u v, Canon p u ∧ Canon p v ∧ WReturns p e (Inst.wHash prof e map u v) A}.ncard ∧
    ∀ n, e.r ≤ (n + 1) * t - n → ∀ k : ℤ, ∃ us : List FpElt, us.length = n + 1 ∧ (∀ u ∈ us, Canon p u) ∧
      WReturns p e (wHashAll prof e map us) (k • g) := by
  have hfin : Finite (wGroup p e).Point := Inst.w_finite hv.curve
  set T : Set (wGroup p e).Point := {C | ∃ u, Canon p u ∧ ∃ B, WReturns p e (map u) B ∧ e.h • B = C} with hTdef
  have hsub : ψ '' S ⊆ T := by
    rintro _ ⟨A, hA, rfl⟩; exact hS A hA
  have hle := hom_card ψ e.r H hv.order_prime.pos hcard A0 ho S
  have htT : t ≤ T.ncard := by
    have h1 : H * (t - 1) < H * T.ncard := ht.trans_le (hle.trans (Nat.mul_le_mul_left _ (Set.ncard_le_ncard hsub)))
    have := lt_of_mul_lt_mul_left h1 (Nat.zero_le H)
    omega
  have hT : ∀ A ∈ T, ∃ k : ℤ, A = k • g := by
    rintro _ ⟨u, -, B, -, rfl⟩; exact hcl B
  have hT0 : T.Nonempty := by
    rw [← Set.ncard_pos]; omega
  have hmono : ∀ n, (n + 1) * t - n ≤ (n + 1) * T.ncard - n := fun n => Nat.sub_le_sub_right (Nat.mul_le_mul_left _ htT) _
  refine ⟨(min_le_right _ _).trans (htT.trans (Set.ncard_le_ncard ?_)), ?_, ?_⟩
  · rintro _ ⟨u, hu, B, ⟨P, hP, hPd⟩, rfl⟩
    refine ⟨u, hu, ?_⟩
    simp only [hP, R.ok_bind]
    exact clear_returns hv h0 hlt prof hPd
  · obtain ⟨W, hW, hWl⟩ := sums hv.order_prime g hg T hT hT0 1
    have : min e.r (2 * t - 1) ≤ W.card := (min_le_min_left _ (hmono 1)).trans hW
    rw [← Set.ncard_coe_finset] at this
    refine this.trans (Set.ncard_le_ncard ?_)
    intro C hC
    obtain ⟨l, hl1, hl2, rfl⟩ := hWl C hC
    obtain ⟨a, b, rfl⟩ := List.length_eq_two.1 hl1
    obtain ⟨u, hu, A, ⟨P, hP, hPd⟩, rfl⟩ := hl2 a (by simp)
    obtain ⟨v, hv', B, ⟨Q, hQ, hQd⟩, rfl⟩ := hl2 b (by simp)
    refine ⟨u, v, hu, hv', ?_⟩
    obtain ⟨Z, hZ, hZd⟩ := (C23_group_law p e hv.curve hv.complete P Q A B hPd hQd).1
    unfold Inst.wHash
    simp only [hP, hQ, hZ, R.ok_bind]
    have := clear_returns hv h0 hlt prof hZd
    simpa [nsmul_add] using this
  · intro n hn k
    obtain ⟨W, hW, hWl⟩ := sums hv.order_prime g hg T hT hT0 n
    have hWr : e.r ≤ W.card := (le_min le_rfl (hn.trans (hmono n))).trans hW
    have hWz : (W : Set (wGroup p e).Point) ⊆ (AddSubgroup.zmultiples g : Set _) := by
      intro C hC
      obtain ⟨l, -, hl2, rfl⟩ := hWl C hC
      refine AddSubgroup.list_sum_mem _ fun A hA => ?_
      obtain ⟨k, hk⟩ := hT A (hl2 A hA)
      exact AddSubgroup.mem_zmultiples_iff.2 ⟨k, hk.symm⟩
    have hWe : (W : Set (wGroup p e).Point) = (AddSubgroup.zmultiples g : Set _) := by
      refine Set.eq_of_subset_of_ncard_le hWz ?_
      rw [Set.ncard_coe_finset, ← Nat.card_coe_set_eq]
      exact ((Nat.card_zmultiples g).trans hg).le.trans hWr
    have hk : k • g ∈ (W : Set (wGroup p e).Point) := by
      rw [hWe]; exact AddSubgroup.mem_zmultiples_iff.2 ⟨k, rfl⟩
    obtain ⟨l, hl1, hl2, hl3⟩ := hWl _ hk
    obtain ⟨q, hq1, hq2, hq3⟩ := pull_list l hl2
    refine ⟨q.map (·.1), by simp [hq1, hl1], ?_, ?_⟩
    · intro u hu
      obtain ⟨a, ha, rfl⟩ := List.mem_map.1 hu
      exact (hq2 a ha).1
    · obtain ⟨I, hI, hId, -⟩ := C22_identity p e hv.curve
      obtain ⟨Z, hZ, hZd⟩ := fold_returns hv map q (fun a ha => (hq2 a ha).2) I 0 hId
      unfold wHashAll
      simp only [hI, R.ok_bind]
      rw [hZ]
      simp only [R.ok_bind]
      have := clear_returns hv h0 hlt prof hZd
      rw [zero_add, hq3, ← hl3] at this
      exact this

/-- The number of points among the results, from the abscissas and parities of the inputs. -/
theorem image_count (he : WCurve p e) (D : Finset (ZMod p)) (X : ZMod p → ZMod p) (S : Set (wGroup p e).Point)
    (hS : ∀ u ∈ D, ∃ y, ∃ hn : (wGroup p e).Nonsingular (X u) y, .some _ y hn ∈ S ∧ y.val % 2 = u.val % 2) (k d : ℕ) (E : Finset (ZMod p))
    (h1 : ∀ x n, x ∉ E → {u : ZMod p | u.val % 2 = n ∧ X u = x}.encard ≤ k)
    (h2 : ∀ x n, {u : ZMod p | u.val % 2 = n ∧ X u = x}.encard ≤ (k + d : ℕ)) :
    D.card ≤ k * S.ncard + d * (2 * E.card) := by
  have hfin : Finite (wGroup p e).Point := Inst.w_finite he
  refine (count D X k d E h1 h2).trans (Nat.add_le_add_right (Nat.mul_le_mul_left _ ?_) _)
  let c : (wGroup p e).Point → ZMod p × ℕ := fun A => match A with
    | .zero => (0, 0)
    | .some x y _ => (x, y.val % 2)
  rw [← Set.ncard_coe_finset]
  refine le_trans (Set.ncard_le_ncard (t := c '' S) ?_ (Set.toFinite _)) (Set.ncard_image_le (Set.toFinite _))
  intro a ha
  obtain ⟨u, hu, rfl⟩ := Finset.mem_image.1 (Finset.mem_coe.1 ha)
  obtain ⟨y, hn, hA, hy⟩ := hS u hu
  exact ⟨_, hA, by simp [c, hy]⟩

theorem parity [Fact (2 < p)] : ∀ y : ZMod p, y ≠ 0 → (-y).val % 2 ≠ y.val % 2 := fun y hy => by
  rw [neg_parity hy]; have := Nat.mod_two_eq_zero_or_one y.val; omega

theorem sswu_count (he : WCurve p e) (z : FpElt) (hz : Canon p z) (m : SSWU) (hm : SSWU.new e z = R.ok m) (D : Finset (ZMod p))
    (S : Set (wGroup p e).Point)
    (hS : ∀ u ∈ D, ∃ y, ∃ hn : (wGroup p e).Nonsingular (sswuX (val p e.a) (val p e.b) (val p z) u) y, .some _ y hn ∈ S ∧ y.val % 2 = u.val % 2) :
    D.card ≤ 4 * S.ncard + 4 := by
  have : Fact (2 < p) := ⟨by have := he.prime.two_le; have := he.odd; omega⟩
  have hok : val p e.a ≠ 0 ∧ val p e.b ≠ 0 ∧ ¬ IsSquare (val p z) ∧ val p z ≠ -1 ∧
      IsSquare (rhs (val p e.a) (val p e.b) (val p e.b / (val p z * val p e.a))) := by
    by_contra h
    rw [(C41_new p e he z hz).2 h] at hm
    cases hm
  obtain ⟨ha, hb, hz', -, hsq⟩ := hok
  have hz0 : val p z ≠ 0 := fun h => hz' (h ▸ IsSquare.zero)
  have := image_count he D (sswuX (val p e.a) (val p e.b) (val p z)) S hS 4 2 {val p e.b / (val p z * val p e.a)}
    (fun x n hx => (Fibres.sswu parity n ha hb hz0 hsq).2 (by simpa using hx))
    (fun x n => (Fibres.sswu parity n ha hb hz0 hsq).1)
  simpa using this

theorem svdw_count (he : WCurve p e) (hs : p % 4 = 3 ∨ p % 8 = 5) (ht : NoTwoTorsion p e) (z : FpElt) (hz : Canon p z) (m : SVDW)
    (hm : SVDW.new e z = R.ok m) : p ≤ 6 * {A | ∃ u, Canon p u ∧ WReturns p e (m.map u) A}.ncard + 8 := by
  classical
  have : Fact (2 < p) := ⟨by have := he.prime.two_le; have := he.odd; omega⟩
  have hok : rhs (val p e.a) (val p e.b) (val p z) ≠ 0 ∧ 3 * val p z ^ 2 + 4 * val p e.a ≠ 0 := by
    by_contra h
    rw [(C42_new p e he hs z hz).2 (fun h' => h ⟨h'.1, h'.2.1⟩)] at hm
    cases hm
  obtain ⟨c, hc, -, hmap⟩ := C42_map p e he hs z hz m hm
  have h2 : (2 : ZMod p) ≠ 0 := MLink.two_ne_zero' he.odd
  have := image_count he Finset.univ (svdwX (val p e.a) (val p e.b) (val p z) c) {A | ∃ u, Canon p u ∧ WReturns p e (m.map u) A}
    (fun u _ => by
      obtain ⟨y, hn, hr, hy⟩ := hmap (el u) (canon_iff.2 ⟨u, rfl⟩)
      rw [val_el] at hy
      refine ⟨y, by rw [val_el] at hn; exact hn, ⟨el u, canon_iff.2 ⟨u, rfl⟩, ?_⟩, hy.resolve_left (Map.y_ne_zero ht hn)⟩
      convert hr using 2
      rw [val_el]) 6 2 {-val p z / 2, val p z}
    (fun x n hx => by
      simp only [Finset.mem_insert, Finset.mem_singleton, not_or] at hx
      exact (Fibres.svdw parity h2 n hok.1 hok.2 hc).2 hx.1 hx.2)
    (fun x n => (Fibres.svdw parity h2 n hok.1 hok.2 hc).1)
  rw [Finset.card_univ, ZMod.card] at this
  have h3 : ({-val p z / 2, val p z} : Finset (ZMod p)).card ≤ 2 := Finset.card_le_two
  omega

/-- What is shown below for every map, with a fraction `1/c`. -/
def Concl (p : ℕ) [Fact p.Prime] (e : Curve) (map : FpElt → R Point) (c : ℕ) : Prop :=
  ∃ G g, e.getGenerator = R.ok G ∧ WDenotes p e G g ∧ addOrderOf g = e.getOrder ∧ ∀ prof : Profile,
    999999 * e.getOrder ≤ c * 1000000 * {A | ∃ u, Canon p u ∧ WReturns p e (do (← map u).mul prof (← e.newScalar e.getCofactor)) A}.ncard ∧
    2 * 999999 * e.getOrder ≤ c * 1000000 * {A | ∃ u v, Canon p u ∧ Canon p v ∧ WReturns p e (Inst.wHash prof e map u v) A}.ncard ∧
    ∀ k : ℤ, ∃ us : List FpElt, us.length = c + 1 ∧ (∀ u ∈ us, Canon p u) ∧ WReturns p e (wHashAll prof e map us) (k • g)

theorem finish (hv : WValid p e) (hlt : e.h < e.r) (h0 : 0 < e.h) (hk : ∀ A : (wGroup p e).Point, (e.r * e.h) • A = 0)
    (hc : ¬ e.r * e.r ∣ Nat.card (wGroup p e).Point) (map : FpElt → R Point)
    {G0 : Type*} [AddCommGroup G0] [Finite G0] (ψ : G0 →+ (wGroup p e).Point) (H : ℕ) (hcard : Nat.card G0 = e.r * H) (A0 : G0)
    (ho : addOrderOf (ψ A0) = e.r) (S : Set G0) (hS : ∀ A ∈ S, ∃ u, Canon p u ∧ ∃ B, WReturns p e (map u) B ∧ e.h • B = ψ A)
    (c b t : ℕ) (hcount : p ≤ c * S.ncard + b) (hn0 : 1 ≤ t ∧ 0 < c * H ∧ b < p ∧ c * H * t ≤ p - b)
    (hn1 : 999999 * e.r ≤ c * 1000000 * min e.r t) (hn2 : 2 * 999999 * e.r ≤ c * 1000000 * min e.r (2 * t - 1))
    (hn3 : e.r ≤ (c + 1) * t - c) : Concl p e map c := by
  have hfin : Finite (wGroup p e).Point := Inst.w_finite hv.curve
  obtain ⟨G, g, hG, hg, hog⟩ := hv.generator
  obtain ⟨h1, h2, h3, h4⟩ := hn0
  have hc0 : 0 < c := Nat.pos_of_mul_pos_right h2
  have hH0 : 0 < H := Nat.pos_of_mul_pos_left h2
  have ht : H * (t - 1) < S.ncard := by
    have e1 : c * (H * t) ≤ c * S.ncard := by rw [← mul_assoc]; omega
    have e2 := Nat.le_of_mul_le_mul_left e1 hc0
    refine lt_of_lt_of_le ?_ e2
    exact Nat.mul_lt_mul_of_pos_left (by omega) hH0
  refine ⟨G, g, hG, hg, hog, fun prof => ?_⟩
  obtain ⟨r1, r2, r3⟩ := reach hv h0 hlt map g hog (fun B => (Cof.cleared (r := e.r) (h := e.h) hv.order_prime hog hk hc B).2)
    ψ H hcard A0 ho S hS t h1 ht prof
  exact ⟨hn1.trans (Nat.mul_le_mul_left _ r1), hn2.trans (Nat.mul_le_mul_left _ r2), r3 c hn3⟩

theorem order_of_kill {G : Type*} [AddCommGroup G] {r : ℕ} (hr : r.Prime) {A : G} (hA : r • A = 0) (h0 : A ≠ 0) : addOrderOf A = r := by
  have : Fact r.Prime := ⟨hr⟩
  exact addOrderOf_eq_prime hA h0

theorem smul_order {G : Type*} [AddCommGroup G] {r h : ℕ} (hr : r.Prime) (h0 : 0 < h) (hlt : h < r) {A : G} (ho : addOrderOf A = r) :
    addOrderOf (h • A) = r := by
  refine order_of_kill hr ?_ ?_
  · rw [nsmul_left_comm, ← ho, addOrderOf_nsmul_eq_zero, nsmul_zero]
  · rw [ne_eq, ← addOrderOf_dvd_iff_nsmul_eq_zero, ho]
    intro hd
    exact absurd (Nat.le_of_dvd h0 hd) (by omega)

/-- The maps that compute a point of the curve itself. -/
theorem direct (hv : WValid p e) (hlt : e.h < e.r) (h0 : 0 < e.h) (hk : ∀ A : (wGroup p e).Point, (e.r * e.h) • A = 0)
    (hc : ¬ e.r * e.r ∣ Nat.card (wGroup p e).Point) (map : FpElt → R Point) (H : ℕ) (hcard : Nat.card (wGroup p e).Point = e.r * H)
    (c b t : ℕ) (hcount : p ≤ c * {A | ∃ u, Canon p u ∧ WReturns p e (map u) A}.ncard + b)
    (hn0 : 1 ≤ t ∧ 0 < c * H ∧ b < p ∧ c * H * t ≤ p - b)
    (hn1 : 999999 * e.r ≤ c * 1000000 * min e.r t) (hn2 : 2 * 999999 * e.r ≤ c * 1000000 * min e.r (2 * t - 1))
    (hn3 : e.r ≤ (c + 1) * t - c) : Concl p e map c := by
  have hfin : Finite (wGroup p e).Point := Inst.w_finite hv.curve
  obtain ⟨G, g, -, -, hog⟩ := hv.generator
  refine finish hv hlt h0 hk hc map (nsmulAddMonoidHom (α := (wGroup p e).Point) e.h) H hcard g
    (smul_order hv.order_prime h0 hlt hog) {A | ∃ u, Canon p u ∧ WReturns p e (map u) A} ?_ c b t hcount hn0 hn1 hn2 hn3
  rintro A ⟨u, hu, hr⟩
  exact ⟨u, hu, A, hr, rfl⟩

/-- The maps that go through an isogenous curve. -/
theorem through {m : IsoMap} (φ : (wGroup p m.e0).Point →+ (wGroup p m.e1).Point) (hφ : ∀ A, IsoImage m A (φ A))
    (hv0 : WValid p m.e0) (hv : WValid p m.e1) (hr : m.e0.r = m.e1.r) (hlt : m.e1.h < m.e1.r) (h0 : 0 < m.e1.h)
    (hk : ∀ A : (wGroup p m.e1).Point, (m.e1.r * m.e1.h) • A = 0)
    (hc : ¬ m.e1.r * m.e1.r ∣ Nat.card (wGroup p m.e1).Point) (K : ℕ) (hK : Nat.card φ.ker = K) (hKr : ¬ m.e1.r ∣ K)
    (map : FpElt → R Point) (H : ℕ) (hcard : Nat.card (wGroup p m.e0).Point = m.e1.r * H) (z : FpElt) (hz : Canon p z) (s : SSWU)
    (hs : SSWU.new m.e0 z = R.ok s) (D : Finset (ZMod p)) (hD : p ≤ D.card + 16)
    (hmap : ∀ u ∈ D, ∃ y hn B, IsoImage m (.some (sswuX (val p m.e0.a) (val p m.e0.b) (val p z) u) y hn) B ∧
      (y = 0 ∨ y.val % 2 = u.val % 2) ∧ B ≠ 0 ∧ WReturns p m.e1 (map (el u)) B)
    (t : ℕ) (hn0 : 1 ≤ t ∧ 0 < 4 * H ∧ 20 < p ∧ 4 * H * t ≤ p - 20)
    (hn1 : 999999 * m.e1.r ≤ 4 * 1000000 * min m.e1.r t) (hn2 : 2 * 999999 * m.e1.r ≤ 4 * 1000000 * min m.e1.r (2 * t - 1))
    (hn3 : m.e1.r ≤ (4 + 1) * t - 4) : Concl p m.e1 map 4 := by
  have hfin : Finite (wGroup p m.e0).Point := Inst.w_finite hv0.curve
  obtain ⟨G, g, -, -, hog⟩ := hv0.generator
  have hog : addOrderOf g = m.e1.r := hr ▸ hog
  have hφg : addOrderOf (φ g) = m.e1.r := by
    refine order_of_kill hv.order_prime ?_ ?_
    · change m.e1.r • φ g = 0
      rw [← map_nsmul, ← hog, addOrderOf_nsmul_eq_zero, map_zero]
    · intro h
      have : addOrderOf (⟨g, AddMonoidHom.mem_ker.2 h⟩ : φ.ker) ∣ Nat.card φ.ker := addOrderOf_dvd_natCard _
      rw [hK, AddSubgroup.addOrderOf_mk, hog] at this
      exact hKr this
  have hcount := sswu_count hv0.curve z hz s hs D {A | ∃ u, Canon p u ∧ WReturns p m.e1 (map u) (φ A)} (fun u hu => by
    obtain ⟨y, hn, B, hB, hy, -, hr⟩ := hmap u hu
    refine ⟨y, hn, ⟨el u, canon_iff.2 ⟨u, rfl⟩, ?_⟩, hy.resolve_left (Map.y_ne_zero hv0.complete hn)⟩
    rw [Isog.image_unique (hφ _) hB]; exact hr)
  refine finish hv hlt h0 hk hc map ((nsmulAddMonoidHom (α := (wGroup p m.e1).Point) m.e1.h).comp φ) H hcard g
    (smul_order hv.order_prime h0 hlt hφg) {A | ∃ u, Canon p u ∧ WReturns p m.e1 (map u) (φ A)} ?_ 4 20 t (by omega) hn0 hn1 hn2 hn3
  rintro A ⟨u, hu, hr⟩
  exact ⟨u, hu, φ A, hr, rfl⟩

end

open Redox.Inst Redox.Props.Inst

/-- The simplified SWU maps with the `Z` of RFC 9380: curve, field size, map. The last two go through an isogenous curve. -/
def sswuMaps : List (R Curve × ℕ × R (FpElt → R Point)) :=
  sswuSuites.map (fun t => (t.1, t.2.1, do
    let e ← t.1
    return (← SSWU.new e (← e.f.fromPrim t.2.2)).map)) ++
  [(SECP256K1, 2 ^ 256 - 2 ^ 32 - 977, do
    let m ← get_isogeny_secp256k1
    return (← SSWUAB0.new m.e1 (← m.e1.f.fromPrim (-11)) m.toIsogeny).map),
   (BLS12381G1, blsP, do
    let m ← get_isogeny_bls12381g1
    return (← SSWUAB0.new m.e1 (← m.e1.f.fromPrim 11) m.toIsogeny).map)]

/-- The Shallue-van de Woestijne maps with the `Z` of RFC 9380: curve, field size, map. -/
def svdwMaps : List (R Curve × ℕ × R (FpElt → R Point)) :=
  svdwSuites.map (fun t => (t.1, t.2.1, do
    let e ← t.1
    return (← SVDW.new e (← e.f.fromPrim t.2.2)).map))

theorem kill_one {p : ℕ} [Fact p.Prime] {e : Curve} (hcard : Nat.card (wGroup p e).Point = e.r) (h1 : e.h = 1) (hr : 2 ≤ e.r) :
    (∀ A : (wGroup p e).Point, (e.r * e.h) • A = 0) ∧ ¬ e.r * e.r ∣ Nat.card (wGroup p e).Point := by
  constructor
  · intro A
    rw [h1, mul_one, ← hcard]; exact card_nsmul_eq_zero'
  · rw [hcard]
    intro hd
    have := Nat.le_of_dvd (by omega) hd
    nlinarith

/-- The inputs not in a list. -/
def avoid {p : ℕ} [Fact p.Prime] (l : List ℕ) : Finset (ZMod p) := Finset.univ.filter fun u => u.val ∉ l

theorem mem_avoid {p : ℕ} [Fact p.Prime] {l : List ℕ} {u : ZMod p} : u ∈ avoid l ↔ u.val ∉ l := by simp [avoid]

theorem avoid_card {p : ℕ} [Fact p.Prime] (l : List ℕ) (n : ℕ) (hn : l.length ≤ n) : p ≤ (avoid (p := p) l).card + n := by
  have h1 := Finset.card_filter_add_card_filter_not (s := (Finset.univ : Finset (ZMod p))) (fun u => u.val ∈ l)
  rw [Finset.card_univ, ZMod.card] at h1
  have h2 : (Finset.univ.filter fun u : ZMod p => u.val ∈ l).card ≤ l.toFinset.card :=
    Finset.card_le_card_of_injOn (fun u => u.val) (fun u hu => by simpa using hu) (fun u _ v _ h => ZMod.val_injective _ h)
  have h3 := List.toFinset_card_le l
  rw [avoid]
  omega

theorem sswu_key : ∀ (c : R Curve) (p : ℕ) (Z : ℤ) [Fact p.Prime] (e : Curve), c = R.ok e → WValid p e → p % 4 = 3 ∨ p % 8 = 5 →
    ((do SSWU.new e (← e.f.fromPrim Z)).bind fun _ => R.ok true) = R.ok true → 2 * p + 1 < 3 * e.r → e.h = 1 →
    (1 ≤ (p - 4) / 4 ∧ 0 < 4 * 1 ∧ 4 < p ∧ 4 * 1 * ((p - 4) / 4) ≤ p - 4) →
    999999 * e.r ≤ 4 * 1000000 * min e.r ((p - 4) / 4) → 2 * 999999 * e.r ≤ 4 * 1000000 * min e.r (2 * ((p - 4) / 4) - 1) →
    e.r ≤ (4 + 1) * ((p - 4) / 4) - 4 → ∃ (_ : Fact p.Prime) (e : Curve) (map : FpElt → R Point),
    c = R.ok e ∧ (do let e ← c; return (← SSWU.new e (← e.f.fromPrim Z)).map) = R.ok map ∧ Concl p e map 4 := by
  intro c p Z _ e hc hv hs hnew hb h1 n0 n1 n2 n3
  obtain ⟨m, hm, -⟩ := R.bind_eq_ok.1 hnew
  obtain ⟨z, hz, hzc, hzv⟩ := Inst.fromPrim_val hv.curve.field Z
  have hr2 : 2 ≤ e.r := hv.order_prime.two_le
  refine ⟨inferInstance, e, m.map, hc, by simp only [hc, R.ok_bind]; simp only [← bind_assoc, hm]; rfl, ?_⟩
  rw [hz, R.ok_bind] at hm
  have hcard := card_of_valid hv hb
  obtain ⟨hk, hcc⟩ := kill_one hcard h1 hr2
  refine direct hv (by omega) (by omega) hk hcc m.map 1 (by rw [hcard, mul_one]) 4 4 _ ?_ n0 n1 n2 n3
  have := sswu_count hv.curve z hzc m hm Finset.univ {A | ∃ u, Canon p u ∧ WReturns p e (m.map u) A} (fun u _ => by
    obtain ⟨y, hn, hr, hy⟩ := C41_map p e hv.curve hs z (el u) hzc (canon_iff.2 ⟨u, rfl⟩) m hm
    rw [val_el] at hy
    refine ⟨y, by rw [val_el] at hn; exact hn, ⟨el u, canon_iff.2 ⟨u, rfl⟩, ?_⟩, hy.resolve_left (Map.y_ne_zero hv.complete hn)⟩
    convert hr using 2
    rw [val_el])
  rwa [Finset.card_univ, ZMod.card] at this

theorem secp_key : ∃ (_ : Fact secp256k1_p.Prime) (e : Curve) (map : FpElt → R Point), SECP256K1 = R.ok e ∧ (do
    let m ← get_isogeny_secp256k1
    return (← SSWUAB0.new m.e1 (← m.e1.f.fromPrim (-11)) m.toIsogeny).map) = R.ok map ∧ Concl secp256k1_p e map 4 := by
  obtain ⟨m, z, M, hm, hz, hzc, hM⟩ := C45_new
  obtain ⟨φ, hφ, hbij⟩ := C67_secp256k1 m hm
  have hmap := fun u hu => C45_map m hm z u hzc hu M hM
  rw [isoSecp256k1_eq, R.ok.injEq] at hm
  subst hm
  obtain ⟨s, hs, -⟩ := Isog.ab0_new isoSecp256k1 (by decide +kernel) z M hM
  have hcard : Nat.card (wGroup secp256k1_p isoSecp256k1.e1).Point = isoSecp256k1.e1.r := card_of_valid secp256k1_valid (by decide +kernel)
  have hcard0 : Nat.card (wGroup secp256k1_p isoSecp256k1.e0).Point = isoSecp256k1.e1.r := card_of_valid secp256k1_3iso_valid (by decide +kernel)
  obtain ⟨hk, hcc⟩ := kill_one hcard (by decide +kernel) (by decide +kernel)
  refine ⟨inferInstance, isoSecp256k1.e1, M.map, secp256k1_eq, by simp only [isoSecp256k1_eq, hz, hM, R.ok_bind]; rfl, ?_⟩
  exact through φ hφ secp256k1_3iso_valid secp256k1_valid (by decide +kernel) (by decide +kernel) (by decide +kernel) hk hcc 1 (by
    rw [(AddMonoidHom.ker_eq_bot_iff φ).2 hbij.1]; simp) (by decide +kernel) M.map 1 (by rw [hcard0, mul_one]) z hzc s hs Finset.univ
    (by rw [Finset.card_univ, ZMod.card]; omega) (fun u _ => by
      have := hmap (el u) (canon_iff.2 ⟨u, rfl⟩)
      rwa [val_el] at this) ((secp256k1_p - 20) / 4) (by decide +kernel) (by decide +kernel) (by decide +kernel) (by decide +kernel)

theorem bls_key : ∃ (_ : Fact bls12381g1_p.Prime) (e : Curve) (map : FpElt → R Point), BLS12381G1 = R.ok e ∧ (do
    let m ← get_isogeny_bls12381g1
    return (← SSWUAB0.new m.e1 (← m.e1.f.fromPrim 11) m.toIsogeny).map) = R.ok map ∧ Concl bls12381g1_p e map 4 := by
  obtain ⟨m, z, M, hm, hz, -, hM⟩ := C46_new
  obtain ⟨φ, hφ, hker⟩ := C67_bls12381g1 m hm
  have hmap := fun u hu => C46_map_partial m hm z hz u hu M hM
  rw [isoBls12381g1_eq, R.ok.injEq] at hm
  subst hm
  have hzc : Canon bls12381g1_p z := by
    obtain ⟨z', hz', hc, -⟩ := Inst.fromPrim_val (p := bls12381g1_p) isoBls12381g1_ok.e1.field 11
    rw [hz', R.ok.injEq] at hz
    exact hz ▸ hc
  obtain ⟨s, hs, -⟩ := Isog.ab0_new isoBls12381g1 (by decide +kernel) z M hM
  refine ⟨inferInstance, isoBls12381g1.e1, M.map, bls12381g1_eq, by simp only [isoBls12381g1_eq, hz, hM, R.ok_bind]; rfl, ?_⟩
  exact through φ hφ bls12381g1_11iso_valid bls12381g1_valid (by decide +kernel) (by decide +kernel) (by decide +kernel) kill_bls
    (by rw [show Nat.card (wGroup bls12381g1_p isoBls12381g1.e1).Point = _ from card_bls]; decide +kernel) 11 hker (by decide +kernel) M.map
    ((blsX + 1) ^ 2 / 3) (by rw [Isog.card_bls_iso]; decide +kernel) z hzc s hs
    (avoid blsBadInputs) (avoid_card blsBadInputs _ (by decide +kernel)) (fun u hu => by
      have := hmap (el u) (canon_iff.2 ⟨u, rfl⟩) (by rw [show (el u).n.toNat = u.val from Int.toNat_natCast _]; exact mem_avoid.1 hu)
      rwa [val_el] at this) ((bls12381g1_p - 20) / (4 * ((blsX + 1) ^ 2 / 3))) (by decide +kernel) (by decide +kernel) (by decide +kernel) (by decide +kernel)

/-- C104, simplified SWU on `P256`, `P384`, `P521`, and through the isogenies on `SECP256K1` and `BLS12381G1`: mapping one field element and clearing the
cofactor reaches a quarter of the multiples of the generator, mapping two, adding and clearing it (RFC 9380's `hash_to_curve`) half of them,
up to one millionth; five field elements suffice to reach every multiple of the generator. -/
theorem _root_.Redox.Props.C104_sswu : ∀ t ∈ sswuMaps, ∃ (_ : Fact t.2.1.Prime) (e : Curve) (map : FpElt → R Point),
    t.1 = R.ok e ∧ t.2.2 = R.ok map ∧
    ∃ G g, e.getGenerator = R.ok G ∧ WDenotes t.2.1 e G g ∧ addOrderOf g = e.getOrder ∧ ∀ prof : Profile,
      999999 * e.getOrder ≤ 4 * 1000000 *
        {A | ∃ u, Canon t.2.1 u ∧ WReturns t.2.1 e (do (← map u).mul prof (← e.newScalar e.getCofactor)) A}.ncard ∧
      2 * 999999 * e.getOrder ≤ 4 * 1000000 *
        {A | ∃ u v, Canon t.2.1 u ∧ Canon t.2.1 v ∧ WReturns t.2.1 e (wHash prof e map u v) A}.ncard ∧
      ∀ k : ℤ, ∃ us : List FpElt, us.length = 5 ∧ (∀ u ∈ us, Canon t.2.1 u) ∧ WReturns t.2.1 e (wHashAll prof e map us) (k • g) := by
  rw [sswuMaps, sswuSuites, Inst.p256_p_eq, Inst.p384_p_eq, Inst.p521_p_eq, Inst.secp256k1_p_eq, Inst.bls_p_eq]
  simp only [List.map_cons, List.map_nil, List.cons_append, List.nil_append, List.forall_mem_cons]
  exact ⟨sswu_key _ _ _ _ p256_eq p256_valid (by decide +kernel) (by decide +kernel) (by decide +kernel) (by decide +kernel) (by decide +kernel)
      (by decide +kernel) (by decide +kernel) (by decide +kernel),
    sswu_key _ _ _ _ p384_eq p384_valid (by decide +kernel) (by decide +kernel) (by decide +kernel) (by decide +kernel) (by decide +kernel)
      (by decide +kernel) (by decide +kernel) (by decide +kernel),
    sswu_key _ _ _ _ p521_eq p521_valid (by decide +kernel) (by decide +kernel) (by decide +kernel) (by decide +kernel) (by decide +kernel)
      (by decide +kernel) (by decide +kernel) (by decide +kernel), secp_key, bls_key, by simp⟩

/-- C104, Shallue-van de Woestijne on the five curves: mapping one field element and clearing the cofactor reaches a sixth of the multiples of the
generator, mapping two, adding and clearing it a third of them, up to one millionth; seven field elements suffice to reach every multiple of the
generator. -/
theorem _root_.Redox.Props.C104_svdw : ∀ t ∈ svdwMaps, ∃ (_ : Fact t.2.1.Prime) (e : Curve) (map : FpElt → R Point),
    t.1 = R.ok e ∧ t.2.2 = R.ok map ∧
    ∃ G g, e.getGenerator = R.ok G ∧ WDenotes t.2.1 e G g ∧ addOrderOf g = e.getOrder ∧ ∀ prof : Profile,
      999999 * e.getOrder ≤ 6 * 1000000 *
        {A | ∃ u, Canon t.2.1 u ∧ WReturns t.2.1 e (do (← map u).mul prof (← e.newScalar e.getCofactor)) A}.ncard ∧
      2 * 999999 * e.getOrder ≤ 6 * 1000000 *
        {A | ∃ u v, Canon t.2.1 u ∧ Canon t.2.1 v ∧ WReturns t.2.1 e (wHash prof e map u v) A}.ncard ∧
      ∀ k : ℤ, ∃ us : List FpElt, us.length = 7 ∧ (∀ u ∈ us, Canon t.2.1 u) ∧ WReturns t.2.1 e (wHashAll prof e map us) (k • g) := by
  have key : ∀ (c : R Curve) (p : ℕ) (Z : ℤ) [Fact p.Prime] (e : Curve) (H : ℕ), c = R.ok e → WValid p e → p % 4 = 3 ∨ p % 8 = 5 →
      ((do SVDW.new e (← e.f.fromPrim Z)).bind fun _ => R.ok true) = R.ok true → e.h < e.r → 0 < e.h →
      ((∀ A : (wGroup p e).Point, (e.r * e.h) • A = 0) ∧ ¬ e.r * e.r ∣ Nat.card (wGroup p e).Point) →
      Nat.card (wGroup p e).Point = e.r * H →
      (1 ≤ (p - 8) / (6 * H) ∧ 0 < 6 * H ∧ 8 < p ∧ 6 * H * ((p - 8) / (6 * H)) ≤ p - 8) →
      999999 * e.r ≤ 6 * 1000000 * min e.r ((p - 8) / (6 * H)) → 2 * 999999 * e.r ≤ 6 * 1000000 * min e.r (2 * ((p - 8) / (6 * H)) - 1) →
      e.r ≤ (6 + 1) * ((p - 8) / (6 * H)) - 6 → ∃ (_ : Fact p.Prime) (e : Curve) (map : FpElt → R Point),
      c = R.ok e ∧ (do let e ← c; return (← SVDW.new e (← e.f.fromPrim Z)).map) = R.ok map ∧ Concl p e map 6 := by
    intro c p Z _ e H hc hv hs hnew h1 h2 hk hcard n0 n1 n2 n3
    obtain ⟨m, hm, -⟩ := R.bind_eq_ok.1 hnew
    obtain ⟨z, hz, hzc, hzv⟩ := Inst.fromPrim_val hv.curve.field Z
    refine ⟨inferInstance, e, m.map, hc, by simp only [hc, R.ok_bind]; simp only [← bind_assoc, hm]; rfl, ?_⟩
    rw [hz, R.ok_bind] at hm
    exact direct hv h1 h2 hk.1 hk.2 m.map H hcard 6 8 _ (svdw_count hv.curve hs hv.complete z hzc m hm) n0 n1 n2 n3
  have c1 : ∀ {p : ℕ} [Fact p.Prime] {e : Curve}, WValid p e → 2 * p + 1 < 3 * e.r → e.h = 1 →
      ((∀ A : (wGroup p e).Point, (e.r * e.h) • A = 0) ∧ ¬ e.r * e.r ∣ Nat.card (wGroup p e).Point) ∧
      Nat.card (wGroup p e).Point = e.r * 1 := fun hv hb h1 => by
    have hcard := card_of_valid hv hb
    exact ⟨kill_one hcard h1 hv.order_prime.two_le, by rw [hcard, mul_one]⟩
  have d1 := c1 p256_valid (by decide +kernel) (by decide +kernel)
  have d2 := c1 p384_valid (by decide +kernel) (by decide +kernel)
  have d3 := c1 p521_valid (by decide +kernel) (by decide +kernel)
  have d4 := c1 secp256k1_valid (by decide +kernel) (by decide +kernel)
  rw [svdwMaps, svdwSuites, Inst.p256_p_eq, Inst.p384_p_eq, Inst.p521_p_eq, Inst.secp256k1_p_eq, Inst.bls_p_eq]
  simp only [List.map_cons, List.map_nil, List.forall_mem_cons]
  refine ⟨key _ _ _ _ 1 p256_eq p256_valid ?_ ?_ ?_ ?_ d1.1 d1.2 ?_ ?_ ?_ ?_, key _ _ _ _ 1 p384_eq p384_valid ?_ ?_ ?_ ?_ d2.1 d2.2 ?_ ?_ ?_ ?_,
    key _ _ _ _ 1 p521_eq p521_valid ?_ ?_ ?_ ?_ d3.1 d3.2 ?_ ?_ ?_ ?_, key _ _ _ _ 1 secp256k1_eq secp256k1_valid ?_ ?_ ?_ ?_ d4.1 d4.2 ?_ ?_ ?_ ?_,
    key _ _ _ _ ((blsX + 1) ^ 2 / 3) bls12381g1_eq bls12381g1_valid ?_ ?_ ?_ ?_ ⟨kill_bls, ?_⟩ ?_ ?_ ?_ ?_ ?_, by simp⟩
  any_goals first | decide +kernel | (rw [card_bls]; decide +kernel)

/-- Two inputs whose images, cleared of the cofactor, differ, for a map of each list. -/
example : (do let m ← SSWU.new p256 (← p256.f.fromPrim (-10))
              let c ← p256.newScalar p256.getCofactor
              (← (← m.map ⟨1, ⟨p256_p⟩⟩).mul .debug c).eq (← (← m.map ⟨2, ⟨p256_p⟩⟩).mul .debug c)) = R.ok false ∧
    (do let m ← SVDW.new bls12381g1 (← bls12381g1.f.fromPrim (-3))
        let c ← bls12381g1.newScalar bls12381g1.getCofactor
        (← (← m.map ⟨1, ⟨bls12381g1_p⟩⟩).mul .debug c).eq (← (← m.map ⟨2, ⟨bls12381g1_p⟩⟩).mul .debug c)) = R.ok false := by
  constructor <;> decide +kernel

end Redox.Props.Reach
