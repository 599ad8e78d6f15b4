import Verif.Proofs.IsoLink
import Verif.Props.IsogenyProps
import Verif.Math.IsoGrid
import Verif.Math.IsoHom

/-! # The isogenies of the model are homomorphisms, from a table of values -/

namespace Redox.RLink

open Spec PolyC IsoGrid

theorem ev_linProd_pow {p : ℕ} (x : ZMod p) (k : ℕ) {rs : List ℕ} (h : rs.all (· < p) = true) :
    ev x (linProd p k rs) = ev x (linProd p 1 rs) ^ k := by
  induction rs with
  | nil => simp [linProd]
  | cons r rs ih =>
    simp only [List.all_cons, Bool.and_eq_true, decide_eq_true_eq] at h
    rw [linProd, linProd, ev_mul, ev_mul, ih h.2, ev_powLin x h.1, ev_powLin x h.1, pow_one, mul_pow]

/-- A point of the domain and the abscissa of its image. -/
def imgOK (p a b : ℕ) (xn xd : List ℕ) (t : ℕ × ℕ × ℕ) : Bool :=
  Nat.beq (t.2.1 * t.2.1 % p) ((t.1 * t.1 * t.1 + a * t.1 + b) % p) && !Nat.beq (hornN p t.1 xd) 0 &&
    Nat.beq (t.2.2 * hornN p t.1 xd % p) (hornN p t.1 xn) && Nat.blt t.2.2 p

theorem hom_of_check {p : ℕ} [Fact p.Prime] {m : IsoMap} (h : IsoOK p m) (two : NoTwoTorsion p m.e1) {rs : List ℕ}
    (hr : rs.all (· < p) = true) (hx : eqL (nats m.x_den) (linProd p 2 rs) = true)
    (hy : eqL (nats m.y_den) (linProd p 3 rs) = true)
    (hN : rs.all (fun r => !Nat.beq (hornN p r (nats m.x_num)) 0) = true) {n : ℕ} {ts : List (Vals ℕ × ℕ)}
    (hlen : (decide (ts.length ≤ p) && decide (m.x_num.length = m.x_den.length) && decide (m.x_num.length - 1 ≤ n) &&
      decide (2 * ((linProd p 1 rs).length - 1) ≤ n) &&
      decide (m.y_num.length - 1 + ((linProd p 1 rs).length - 1) + 2 ≤ 2 * n) && decide (4 * n < ts.length)) = true)
    (ht : tableOK p m.e0.a.n.toNat m.e0.b.n.toNat (nats m.x_num) (linProd p 1 rs) (nats m.y_num) 0 ts = true)
    (hg : gridOK p m.e0.a.n.toNat m.e0.b.n.toNat m.e1.a.n.toNat m.e1.b.n.toNat (nats m.x_num) (nats m.x_den) ts = true)
    {is : List (ℕ × ℕ × ℕ)}
    (his : is.all (imgOK p m.e0.a.n.toNat m.e0.b.n.toNat (nats m.x_num) (nats m.x_den)) = true)
    (hnd : (is.map (·.2.2)).Nodup) (hil : 12 < is.length) :
    ∃ φ : (wGroup p m.e0).Point →+ (wGroup p m.e1).Point, ∀ A, IsoImage m A (φ A) := by
  have hp2 : 2 ≤ p := h.e0.prime.two_le
  simp only [Bool.and_eq_true, decide_eq_true_eq] at hlen
  obtain ⟨⟨⟨⟨⟨l1, l2⟩, l3⟩, l4⟩, l5⟩, l6⟩ := hlen
  choose f hf using Props.Isog.image_exists h
  set d : ZMod p → ZMod p := fun x => ev x (linProd p 1 rs) with hd
  set N : ZMod p → ZMod p := fun x => ev x (nats m.x_num) with hNd
  set M : ZMod p → ZMod p := fun x => ev x (nats m.y_num) with hM
  have vxn : ∀ x, polyVal p m.x_num x = N x := fun x => polyVal_ev _ h.canon_xn x
  have vyn : ∀ x, polyVal p m.y_num x = M x := fun x => polyVal_ev _ h.canon_yn x
  have vxd' : ∀ x, ev x (nats m.x_den) = d x ^ 2 := fun x => by rw [ev_eq x _ _ hx, ev_linProd_pow x 2 hr]
  have vxd : ∀ x, polyVal p m.x_den x = d x ^ 2 := fun x => by
    rw [polyVal_ev _ h.canon_xd]
    exact vxd' x
  have vyd : ∀ x, polyVal p m.y_den x = d x ^ 3 := fun x => by
    rw [polyVal_ev _ h.canon_yd]
    change ev x (nats m.y_den) = _
    rw [ev_eq x _ _ hy, ev_linProd_pow x 3 hr]
  have hker : ∀ x, InKernel p m x ↔ d x = 0 := fun x => by
    rw [InKernel, vxd, vyd, pow_eq_zero_iff (by norm_num), pow_eq_zero_iff (by norm_num), or_self]
  have h0 : f 0 = 0 := hf 0
  have hk : ∀ x y hxy, d x = 0 → f (.some x y hxy) = 0 := by
    intro x y hxy hdx
    have := hf (.some x y hxy)
    generalize f (.some x y hxy) = B at this
    rcases B with _ | ⟨u, v, huv⟩
    · rfl
    · exact absurd ((hker x).2 hdx) this.1
  have hn : ∀ x y hxy, d x ≠ 0 → ∃ h', f (.some x y hxy) = .some (N x / d x ^ 2) (y * (M x / d x ^ 3)) h' := by
    intro x y hxy hdx
    have := hf (.some x y hxy)
    generalize f (.some x y hxy) = B at this
    rcases B with _ | ⟨u, v, huv⟩
    · exact absurd ((hker x).1 this) hdx
    · obtain ⟨-, rfl, rfl⟩ := this
      simp only [vxn, vxd, vyn, vyd] at huv ⊢
      exact ⟨huv, trivial⟩
  have hNz : ∀ x, d x = 0 → N x ≠ 0 := by
    intro x hdx
    obtain ⟨r, hr', rfl⟩ := (ev_linProd_eq_zero one_ne_zero hr).1 hdx
    have h1 := List.all_eq_true.1 hN r hr'
    intro hz
    have h2 := hornN_cast (p := p) r (nats m.x_num)
    change _ = N _ at h2
    rw [hz, ZMod.natCast_eq_zero_iff] at h2
    have h3 : hornN p r (nats m.x_num) < p := by
      cases nats m.x_num with
      | nil => simp only [hornN]; omega
      | cons c cs => exact Nat.mod_lt _ (by omega)
    have h4 := Nat.eq_zero_of_dvd_of_lt h2 h3
    rw [h4] at h1
    simp at h1
  have hid := ident_of_grid (p := p) (n := n) (xn := nats m.x_num) (xd := nats m.x_den) l1 hp2
    (by simpa [nats] using l3) (by simpa [nats, ← l2] using l3) l4 (by simpa [nats] using l5) l6 ht hg
  rw [← val_toNat h.e0.canon_a, ← val_toNat h.e0.canon_b, ← val_toNat h.e1.canon_a, ← val_toNat h.e1.canon_b] at hid
  have hadd := IsoHom.additive (f := f) h0 hk hn hNz (fun x1 x2 w hw hne => by
      have := ident_spec (w := w) (v1 := vals _ _ _ _ _ x1) (v2 := vals _ _ _ _ _ x2) hw (by simp [nats, l2]) hne (hid x1 x2)
      have e := vxd' (((sumU (val p m.e0.a) (val p m.e0.b) x1 x2).ev w) / (x1 - x2) ^ 2)
      simp only [vals] at this
      change ev _ (nats m.x_num) * _ = ev _ (nats m.x_den) * _ at this
      rw [e] at this
      exact this) two ((is.map (·.2.2)).toFinset.image (Nat.cast : ℕ → ZMod p)) (by
        rw [Finset.card_image_of_injOn, List.toFinset_card_of_nodup hnd, List.length_map]
        · exact hil
        · intro i hi j hj hij
          have hlt : ∀ i ∈ ((is.map (·.2.2)).toFinset : Set ℕ), i < p := by
            intro i hi
            rw [Finset.mem_coe, List.mem_toFinset, List.mem_map] at hi
            obtain ⟨t, ht, rfl⟩ := hi
            have := List.all_eq_true.1 his t ht
            simp only [imgOK, Bool.and_eq_true, Nat.blt_eq] at this
            exact this.2
          have := (ZMod.natCast_eq_natCast_iff' i j p).1 hij
          rwa [Nat.mod_eq_of_lt (hlt i hi), Nat.mod_eq_of_lt (hlt j hj)] at this) (by
      intro X hX
      obtain ⟨i, hi, rfl⟩ := Finset.mem_image.1 hX
      rw [List.mem_toFinset, List.mem_map] at hi
      obtain ⟨t, ht, rfl⟩ := hi
      have hto := List.all_eq_true.1 his t ht
      simp only [imgOK, Bool.and_eq_true, Nat.blt_eq, Nat.beq_eq, Bool.not_eq_true'] at hto
      obtain ⟨⟨⟨t1, t2⟩, t3⟩, t4⟩ := hto
      have c1 : ((t.2.1 : ℕ) : ZMod p) ^ 2 = (t.1 : ZMod p) ^ 3 + val p m.e0.a * t.1 + val p m.e0.b := by
        have := (ZMod.natCast_eq_natCast_iff' _ _ p).2 t1
        push_cast at this
        rw [val_toNat h.e0.canon_a, val_toNat h.e0.canon_b]
        linear_combination this
      obtain ⟨hnn, -⟩ := Props.Map.newPoint_some h.e0 c1
      have c2 : d (t.1 : ZMod p) ≠ 0 := by
        intro hz
        have e1 := hornN_cast (p := p) t.1 (nats m.x_den)
        change _ = ev _ (nats m.x_den) at e1
        rw [vxd', hz, zero_pow two_ne_zero, ZMod.natCast_eq_zero_iff] at e1
        have h3 : hornN p t.1 (nats m.x_den) < p := by
          cases nats m.x_den with
          | nil => simp only [hornN]; omega
          | cons c cs => exact Nat.mod_lt _ (by omega)
        rw [Nat.eq_zero_of_dvd_of_lt e1 h3] at t2
        simp at t2
      obtain ⟨h', e'⟩ := hn _ _ hnn c2
      have c3 : ((t.2.2 : ℕ) : ZMod p) = N (t.1 : ZMod p) / d (t.1 : ZMod p) ^ 2 := by
        rw [eq_div_iff (pow_ne_zero 2 c2)]
        have := congrArg (Nat.cast : ℕ → ZMod p) t3
        rw [ZMod.natCast_mod, Nat.cast_mul, hornN_cast, hornN_cast] at this
        change _ * ev _ (nats m.x_den) = ev _ (nats m.x_num) at this
        rw [vxd'] at this
        exact this
      refine ⟨.some _ _ hnn, (t.2.1 : ZMod p) * (M t.1 / d t.1 ^ 3), ?_⟩
      rw [c3]
      exact ⟨h', e'⟩)
  exact ⟨⟨⟨f, h0⟩, hadd⟩, hf⟩

end Redox.RLink
