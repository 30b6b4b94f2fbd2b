import Verif.Props.Walls
import Verif.Props.Equivariance

/-!
# C114, continued: far from the walls, and constant universes between walls
-/

namespace Yuca

open Arith Spec

variable {α : Type} {ext int N H W : Nat}

/-- Two universes agree in every cell at least `k` cells away from the edges. -/
def Spec.AgreeInside {C : Nat} (k : Nat) (u v : Univ α N C H W) : Prop :=
  ∀ m c (i : Fin H) (j : Fin W), k ≤ i.val → i.val + k < H → k ≤ j.val → j.val + k < W →
    u m c i j = v m c i j

section

variable [Arith α]

theorem padRead_inside (m : PadMode) (g : Grid α H W) {i j : ℤ} (hi : 0 ≤ i ∧ i < H)
    (hj : 0 ≤ j ∧ j < W) : padRead m g i j = g ⟨i.toNat, by omega⟩ ⟨j.toNat, by omega⟩ := by
  unfold padRead
  rw [padIdx_inside m hi.1 hi.2, padIdx_inside m hj.1 hj.2]

theorem taps_inside {L : ConvLayer α ext int} (hk : L.k % 2 = 1) (m : PadMode) {R k : Nat}
    (hR : L.pad ≤ R) {u v : Univ α N ext H W} (h : AgreeInside k u v) (n : Fin N) {i : Fin H}
    {j : Fin W} (hi : k + R ≤ i.val) (hi' : i.val + (k + R) < H) (hj : k + R ≤ j.val)
    (hj' : j.val + (k + R) < W) (o : Fin int) :
    (L.walled m).taps (v n) o i j = L.taps (u n) o i j := by
  have hp : L.pad = (L.k - 1) / 2 := rfl
  have hp' : (L.walled m).pad = L.pad := rfl
  unfold ConvLayer.taps
  rw [hp']
  congr 1; funext c
  refine List.flatMap_congr fun a _ => List.map_congr_left fun b _ => ?_
  have ha : a.val < L.k := a.isLt
  have hb : b.val < L.k := b.isLt
  refine Prod.ext rfl ?_
  dsimp only
  rw [padRead_inside _ _ (by omega) (by omega), padRead_inside _ _ (by omega) (by omega)]
  refine (h n _ _ _ ?_ ?_ ?_ ?_).symm <;> dsimp only <;> omega

omit [Arith α] in
theorem Spec.AgreeInside.mono {C k l : Nat} (hkl : k ≤ l) {u v : Univ α N C H W}
    (h : AgreeInside k u v) : AgreeInside l u v :=
  fun m c i j h1 h2 h3 h4 => h m c i j (by omega) (by omega) (by omega) (by omega)

theorem Spec.AgreeInside.mask {k : Nat} {u v : Univ α N ext H W} (h : AgreeInside k u v)
    (thr : α) : AgreeInside k (maskIf thr u) (maskIf thr v) := by
  intro m c i j h1 h2 h3 h4
  unfold maskIf
  split
  · simp only [aliveMask, h m _ i j h1 h2 h3 h4]
  · exact h m c i j h1 h2 h3 h4

omit [Arith α] in
theorem iterate_inside {σ : Type} {C : Nat} (ψ : σ → σ)
    (f : σ → Univ α N C H W → Except PyErr (Univ α N C H W × σ)) (R : Nat) (P : σ → Prop)
    (hP : ∀ s b b' s', P s → f s b = .ok (b', s') → P s')
    (hf : ∀ s k u v ru rv, P s → f s u = .ok ru → f (ψ s) v = .ok rv → AgreeInside k u v →
      rv.2 = ψ ru.2 ∧ AgreeInside (k + R) ru.1 rv.1) (n : Nat) :
    ∀ s k u v ru rv, P s → iterate f n s u = .ok ru → iterate f n (ψ s) v = .ok rv →
      AgreeInside k u v → AgreeInside (k + n * R) ru.1 rv.1 := by
  induction n with
  | zero =>
    intro s k u v ru rv _ hu hv h
    cases hu; cases hv
    simpa using h
  | succ n ih =>
    intro s k u v ru rv hs hu hv h
    obtain ⟨⟨u', s1⟩, hu1, hu2⟩ := bind_ok hu
    obtain ⟨⟨v', s2⟩, hv1, hv2⟩ := bind_ok hv
    obtain ⟨hst, hin⟩ := hf s k u v _ _ hs hu1 hv1 h
    simp only at hst hin hu2 hv2
    subst hst
    have := ih s1 (k + R) u' v' ru rv (hP s u u' s1 hs hu1) hu2 hv2 hin
    rwa [show k + R + n * R = k + (n + 1) * R by ring] at this

/-- C114: in any arithmetic, cells more than `n` kernel radii away from the edges do not notice the
walls within `n` steps: any other `conv_mode` gives them the same values, bit for bit. -/
theorem cca_far_from_walls (ca : CCA α ext int) (m : PadMode) (R : Nat) (h1 : ca.idL.pad ≤ R)
    (h2 : ca.nbL.pad ≤ R) (n : Nat) (u : Univ α N ext H W) (ru rv : Univ α N ext H W × CCA α ext int)
    (hu : iterate CCA.forward n ca u = .ok ru)
    (hv : iterate CCA.forward n (ca.walled m) u = .ok rv) :
    AgreeInside (n * R) ru.1 rv.1 := by
  have := iterate_inside (CCA.walled m) CCA.forward R (fun s => s.idL = ca.idL ∧ s.nbL = ca.nbL)
    ?_ ?_ n ca 0 u u ru rv ⟨rfl, rfl⟩ hu hv (fun _ _ _ _ _ _ _ _ => rfl)
  · simpa using this
  · intro s b b' s' hs h
    obtain ⟨_, _, _, _, _, _, h⟩ := CCA.forward_ok h
    cases h; exact hs
  · rintro s k u v ru rv ⟨hi, hn⟩ hu hv h
    obtain ⟨ix, nx, px, a1, a2, a3, rfl⟩ := CCA.forward_ok hu
    obtain ⟨iy, ny, py, b1, b2, b3, rfl⟩ := CCA.forward_ok hv
    refine ⟨rfl, fun q c i j c1 c2 c3 c4 => ?_⟩
    have hmk := h.mask s.thr
    obtain ⟨k1, rfl⟩ := apply_ok a1
    obtain ⟨_, rfl⟩ := apply_ok b1
    obtain ⟨k2, rfl⟩ := apply_ok a2
    obtain ⟨_, rfl⟩ := apply_ok b2
    rw [← hi] at h1; rw [← hn] at h2
    have b3' : s.updateUniverse _ _ = .ok py := b3
    refine eulerClamp_congr
      (fun c => hmk q c i j (by omega) (by omega) (by omega) (by omega))
      (updateUniverse_congr a3 b3' ?_ ?_) c
    · intro o; exact congrArg dot (taps_inside k1 m h1 hmk q c1 c2 c3 c4 o).symm
    · intro o; exact congrArg dot (taps_inside k2 m h2 hmk q c1 c2 c3 c4 o).symm

/-- C114: the same for `Lenia`. -/
theorem lenia_far_from_walls (ca : CCA α ext int) (m : PadMode) (R : Nat) (h2 : ca.nbL.pad ≤ R)
    (n : Nat) (u : Univ α N ext H W) (ru rv : Univ α N ext H W × CCA α ext int)
    (hu : iterate CCA.leniaForward n ca u = .ok ru)
    (hv : iterate CCA.leniaForward n (ca.walled m) u = .ok rv) :
    AgreeInside (n * R) ru.1 rv.1 := by
  have := iterate_inside (CCA.walled m) CCA.leniaForward R (fun s => s.nbL = ca.nbL)
    ?_ ?_ n ca 0 u u ru rv rfl hu hv (fun _ _ _ _ _ _ _ _ => rfl)
  · simpa using this
  · intro s b b' s' hs h
    obtain ⟨_, _, _, _, _, _, h⟩ := CCA.leniaForward_ok h
    cases h; exact hs
  · rintro s k u v ru rv hn hu hv h
    obtain ⟨ix, nx, px, a1, a2, a3, rfl⟩ := CCA.leniaForward_ok hu
    obtain ⟨iy, ny, py, b1, b2, b3, rfl⟩ := CCA.leniaForward_ok hv
    refine ⟨rfl, fun q c i j c1 c2 c3 c4 => ?_⟩
    have hmk := h.mask s.thr
    obtain ⟨k2, rfl⟩ := apply_ok a2
    obtain ⟨_, rfl⟩ := apply_ok b2
    rw [← hn] at h2
    refine eulerClamp_congr
      (fun c => hmk q c i j (by omega) (by omega) (by omega) (by omega)) ?_ c
    obtain ⟨gx, a1, hx⟩ := bind_ok a3
    obtain ⟨gy, b1, hy⟩ := bind_ok b3
    cases hx; cases hy
    intro c
    apply weights_congr
    exact perChannel_congr a1 b1
      (fun o => congrArg dot (taps_inside k2 m h2 hmk q c1 c2 c3 c4 o).symm)

/-- C114: the same for Gray-Scott automata. -/
theorem rxn_far_from_walls (ca : RxnDfn α) (m : PadMode) (R : Nat) (h1 : ca.idL.pad ≤ R)
    (h2 : ca.nbL.pad ≤ R) (n : Nat) (u : Univ α N 2 H W) (ru rv : Univ α N 2 H W × RxnDfn α)
    (hu : iterate RxnDfn.forward n ca u = .ok ru)
    (hv : iterate RxnDfn.forward n (ca.walled m) u = .ok rv) :
    AgreeInside (n * R) ru.1 rv.1 := by
  have := iterate_inside (RxnDfn.walled m) RxnDfn.forward R
    (fun s => s.idL = ca.idL ∧ s.nbL = ca.nbL)
    ?_ ?_ n ca 0 u u ru rv ⟨rfl, rfl⟩ hu hv (fun _ _ _ _ _ _ _ _ => rfl)
  · simpa using this
  · intro s b b' s' hs h
    obtain ⟨_, _, _, _, h⟩ := RxnDfn.forward_ok h
    cases h; exact hs
  · rintro s k u v ru rv ⟨hi, hn⟩ hu hv h
    obtain ⟨ix, nx, a1, a2, rfl⟩ := RxnDfn.forward_ok hu
    obtain ⟨iy, ny, b1, b2, rfl⟩ := RxnDfn.forward_ok hv
    refine ⟨rfl, fun q c i j c1 c2 c3 c4 => ?_⟩
    obtain ⟨k1, rfl⟩ := apply_ok a1
    obtain ⟨_, rfl⟩ := apply_ok b1
    obtain ⟨k2, rfl⟩ := apply_ok a2
    obtain ⟨_, rfl⟩ := apply_ok b2
    rw [← hi] at h1; rw [← hn] at h2
    refine eulerClamp_congr
      (fun c => h q c i j (by omega) (by omega) (by omega) (by omega)) ?_ c
    intro c
    have e1 := fun o => taps_inside k1 m h1 h q c1 c2 c3 c4 o
    have e2 := fun o => taps_inside k2 m h2 h q c1 c2 c3 c4 o
    simp only [RxnDfn.walled] at *
    simp only [RxnDfn.updateUniverse, e1, e2]

/-- C114: the same for neural automata in evaluation mode. -/
theorem nca_far_from_walls [Transc α] {hid : Nat} (ca : NCA α ext int hid) (m : PadMode) (R : Nat)
    (h1 : ca.idL.pad ≤ R) (h2 : ca.nbL.pad ≤ R) (n : Nat) (u : Univ α N ext H W)
    (ru rv : Univ α N ext H W × NCA α ext int hid)
    (hu : iterate (fun s b => NCA.forward s none b) n ca u = .ok ru)
    (hv : iterate (fun s b => NCA.forward s none b) n (ca.walled m) u = .ok rv) :
    AgreeInside (n * R) ru.1 rv.1 := by
  have := iterate_inside (NCA.walled m) (fun s b => NCA.forward s none b) R
    (fun s => s.idL = ca.idL ∧ s.nbL = ca.nbL)
    ?_ ?_ n ca 0 u u ru rv ⟨rfl, rfl⟩ hu hv (fun _ _ _ _ _ _ _ _ => rfl)
  · simpa using this
  · intro s b b' s' hs h
    obtain ⟨_, _, _, _, _, _, h⟩ := NCA.forward_ok h
    cases h; exact hs
  · rintro s k u v ru rv ⟨hi, hn⟩ hu hv h
    obtain ⟨ix, nx, px, a1, a2, a3, rfl⟩ := NCA.forward_ok hu
    obtain ⟨iy, ny, py, b1, b2, b3, rfl⟩ := NCA.forward_ok hv
    refine ⟨rfl, fun q c i j c1 c2 c3 c4 => ?_⟩
    have hmk := h.mask s.thr
    obtain ⟨k1, rfl⟩ := apply_ok a1
    obtain ⟨_, rfl⟩ := apply_ok b1
    obtain ⟨k2, rfl⟩ := apply_ok a2
    obtain ⟨_, rfl⟩ := apply_ok b2
    rw [← hi] at h1; rw [← hn] at h2
    have e1 := fun o => taps_inside k1 m h1 hmk q c1 c2 c3 c4 o
    have e2 := fun o => taps_inside k2 m h2 hmk q c1 c2 c3 c4 o
    refine eulerClamp_congr
      (fun c => hmk q c i j (by omega) (by omega) (by omega) (by omega)) ?_ c
    simp only [NCA.walled] at b3 e1 e2
    unfold NCA.updateUniverse at a3 b3
    split at a3
    · rename_i hei
      simp only [hei, dif_pos] at b3
      cases a3; cases b3
      intro c
      simp only
      congr 1
      apply conv1x1_congr; intro o
      congr 1
      apply conv1x1_congr; intro o
      congr 1
      apply conv1x1_congr; intro o
      simp only [catChannels]
      refine Fin.addCases (fun o => ?_) (fun o => ?_) o
      · simp only [Fin.addCases_left, e1]
      · simp only [Fin.addCases_right, e2]
    · cases a3

/-! ## Constant universes -/

theorem padRead_const {m : PadMode} {g : Grid α H W} (hg : ∀ i j i' j', g i j = g i' j')
    (hm : m ≠ .zeros) {p : Nat} (hpH : p < H) (hpW : p < W) {i j : ℤ} (hi0 : -p ≤ i)
    (hi1 : i < H + p) (hj0 : -p ≤ j) (hj1 : j < W + p) (r : Fin H) (s : Fin W) :
    padRead m g i j = g r s := by
  have key : ∀ {n : Nat} {k : ℤ}, p < n → -p ≤ k → k < n + p → ∃ x, padIdx m n k = some x := by
    intro n k h h0 h1
    cases m with
    | circular => exact ⟨_, by simp only [padIdx]; rw [dif_pos (by omega)]⟩
    | zeros => exact absurd rfl hm
    | reflect =>
      refine ⟨⟨(if k < 0 then -k else if (n : ℤ) ≤ k then 2 * ((n : ℤ) - 1) - k else k).toNat, ?_⟩, ?_⟩
      · split <;> (try split) <;> omega
      · simp only [padIdx]
        rw [dif_pos (by split <;> (try split) <;> omega)]
    | replicate => exact ⟨_, by simp only [padIdx]; rw [dif_pos (by omega)]⟩
  obtain ⟨x, hx⟩ := key hpH hi0 hi1
  obtain ⟨y, hy⟩ := key hpW hj0 hj1
  unfold padRead
  rw [hx, hy]
  exact hg _ _ _ _

/-- Room for the walls. -/
def Spec.WallRoom (H W : Nat) (L : ConvLayer α ext int) : Prop := L.pad < H ∧ L.pad < W

theorem const_matches {L : ConvLayer α ext int} (hL : L.mode ≠ .zeros) {m : PadMode}
    (hm : m ≠ .zeros) (hr : Spec.WallRoom H W L) (u : Univ α N ext H W) (hu : Homogeneous u) :
    Matches id m L u := by
  obtain ⟨h1, h2⟩ := hr
  have ok : ∀ {m : PadMode} {n : Nat}, L.pad < n → padOK m L.pad n = true := by
    intro m n h
    cases m <;> simp only [padOK, decide_eq_true_eq] <;> omega
  unfold Matches ConvLayer.apply
  by_cases hk : L.k % 2 = 1
  · rw [if_pos ⟨hk, ok h1, ok h2⟩, if_pos ⟨hk, ok h1, ok h2⟩]
    simp only [Functor.map, Except.map]
    congr 1
    funext n o i j
    simp only [reindex, id]
    congr 1
    have hp : L.pad = (L.k - 1) / 2 := rfl
    have hp' : (L.walled m).pad = L.pad := rfl
    unfold ConvLayer.taps
    rw [hp']
    congr 1; funext c
    refine List.flatMap_congr fun a _ => List.map_congr_left fun b _ => ?_
    have ha : a.val < L.k := a.isLt
    have hb : b.val < L.k := b.isLt
    refine Prod.ext rfl ?_
    dsimp only
    rw [padRead_const (m := L.mode) (hu n (inChan o c)) hL h1 h2 (by omega) (by omega) (by omega)
        (by omega) i j]
    exact padRead_const (m := m) (hu n (inChan o c)) hm h1 h2 (by omega) (by omega) (by omega)
        (by omega) i j
  · rw [if_neg fun h => hk h.1, if_neg fun h => hk h.1]; rfl

omit [Arith α] in
theorem iterate_const {σ : Type} {C : Nat} (ψ : σ → σ)
    (f : σ → Univ α N C H W → Except PyErr (Univ α N C H W × σ)) (P : σ → Prop)
    (hP : ∀ s b b' s', P s → f s b = .ok (b', s') → P s')
    (hh : ∀ s b r, P s → Homogeneous b → f s b = .ok r → Homogeneous r.1)
    (hf : ∀ s b, P s → Homogeneous b → f (ψ s) b = Prod.map id ψ <$> f s b) (n : Nat) :
    ∀ s u, P s → Homogeneous u → iterate f n (ψ s) u = Prod.map id ψ <$> iterate f n s u := by
  induction n with
  | zero => intro s u _ _; rfl
  | succ n ih =>
    intro s u hs hu
    simp only [iterate, hf s u hs hu]
    cases h : f s u with
    | error _ => rfl
    | ok r =>
      obtain ⟨b', s'⟩ := r
      simp only [bind, Except.bind, Functor.map, Except.map, Prod.map]
      exact ih s' b' (hP s u b' s' hs h) (hh s u _ hs hu h)

omit [Arith α] in
theorem Spec.Homogeneous.mask' [Arith α] {u : Univ α N ext H W} (hu : Homogeneous u) (thr : α) :
    Homogeneous (maskIf thr u) := by
  intro n c i j i' j'
  unfold maskIf
  split
  · simp only [aliveMask, hu n _ i j i' j']
  · exact hu n c i j i' j'

/-- C114: reflecting and replicating walls are not noticed by a universe that is constant in space:
it runs as on the torus. -/
theorem cca_const_walls (ca : CCA α ext int) (h1 : ca.idL.mode = .circular)
    (h2 : ca.nbL.mode = .circular) {m : PadMode} (hm : m ≠ .zeros) (r1 : Spec.WallRoom H W ca.idL)
    (r2 : Spec.WallRoom H W ca.nbL) (n : Nat) (u : Univ α N ext H W) (hu : Homogeneous u) :
    iterate CCA.forward n (ca.walled m) u =
      Prod.map id (CCA.walled m) <$> iterate CCA.forward n ca u := by
  refine iterate_const (CCA.walled m) CCA.forward (fun s => s.idL = ca.idL ∧ s.nbL = ca.nbL)
    (fun s b b' s' hs h => ?_) (fun s b r hs hb h => ?_) (fun s b hs hb => ?_) n ca u ⟨rfl, rfl⟩ hu
  · obtain ⟨_, _, _, _, _, _, h⟩ := CCA.forward_ok h; cases h; exact hs
  · refine cca_homogeneous s (hs.1 ▸ h1) (hs.2 ▸ h2) 1 b hb r ?_
    simp only [iterate, h, bind, Except.bind]
  · exact cca_forward_walled (e := id) s b
      (const_matches (by rw [hs.1, h1]; simp) hm (hs.1 ▸ r1) _ (hb.mask' s.thr))
      (const_matches (by rw [hs.2, h2]; simp) hm (hs.2 ▸ r2) _ (hb.mask' s.thr))

/-- C114: the same for `Lenia`. -/
theorem lenia_const_walls (ca : CCA α ext int) (h1 : ca.idL.mode = .circular)
    (h2 : ca.nbL.mode = .circular) {m : PadMode} (hm : m ≠ .zeros) (r1 : Spec.WallRoom H W ca.idL)
    (r2 : Spec.WallRoom H W ca.nbL) (n : Nat) (u : Univ α N ext H W) (hu : Homogeneous u) :
    iterate CCA.leniaForward n (ca.walled m) u =
      Prod.map id (CCA.walled m) <$> iterate CCA.leniaForward n ca u := by
  refine iterate_const (CCA.walled m) CCA.leniaForward (fun s => s.idL = ca.idL ∧ s.nbL = ca.nbL)
    (fun s b b' s' hs h => ?_) (fun s b r hs hb h => ?_) (fun s b hs hb => ?_) n ca u ⟨rfl, rfl⟩ hu
  · obtain ⟨_, _, _, _, _, _, h⟩ := CCA.leniaForward_ok h; cases h; exact hs
  · refine lenia_homogeneous s (hs.1 ▸ h1) (hs.2 ▸ h2) 1 b hb r ?_
    simp only [iterate, h, bind, Except.bind]
  · exact lenia_forward_walled (e := id) s b
      (const_matches (by rw [hs.1, h1]; simp) hm (hs.1 ▸ r1) _ (hb.mask' s.thr))
      (const_matches (by rw [hs.2, h2]; simp) hm (hs.2 ▸ r2) _ (hb.mask' s.thr))

/-- C114: the same for Gray-Scott automata. -/
theorem rxn_const_walls (ca : RxnDfn α) (h1 : ca.idL.mode = .circular)
    (h2 : ca.nbL.mode = .circular) {m : PadMode} (hm : m ≠ .zeros) (r1 : Spec.WallRoom H W ca.idL)
    (r2 : Spec.WallRoom H W ca.nbL) (n : Nat) (u : Univ α N 2 H W) (hu : Homogeneous u) :
    iterate RxnDfn.forward n (ca.walled m) u =
      Prod.map id (RxnDfn.walled m) <$> iterate RxnDfn.forward n ca u := by
  refine iterate_const (RxnDfn.walled m) RxnDfn.forward (fun s => s.idL = ca.idL ∧ s.nbL = ca.nbL)
    (fun s b b' s' hs h => ?_) (fun s b r hs hb h => ?_) (fun s b hs hb => ?_) n ca u ⟨rfl, rfl⟩ hu
  · obtain ⟨_, _, _, _, h⟩ := RxnDfn.forward_ok h; cases h; exact hs
  · refine rxn_homogeneous s (hs.1 ▸ h1) (hs.2 ▸ h2) 1 b hb r ?_
    simp only [iterate, h, bind, Except.bind]
  · exact rxn_forward_walled (e := id) s b
      (const_matches (by rw [hs.1, h1]; simp) hm (hs.1 ▸ r1) _ hb)
      (const_matches (by rw [hs.2, h2]; simp) hm (hs.2 ▸ r2) _ hb)

/-- C114: the same for neural automata in evaluation mode. -/
theorem nca_const_walls [Transc α] {hid : Nat} (ca : NCA α ext int hid)
    (h1 : ca.idL.mode = .circular) (h2 : ca.nbL.mode = .circular) {m : PadMode} (hm : m ≠ .zeros)
    (r1 : Spec.WallRoom H W ca.idL) (r2 : Spec.WallRoom H W ca.nbL) (n : Nat) (u : Univ α N ext H W)
    (hu : Homogeneous u) :
    iterate (fun s b => NCA.forward s none b) n (ca.walled m) u =
      Prod.map id (NCA.walled m) <$> iterate (fun s b => NCA.forward s none b) n ca u := by
  refine iterate_const (NCA.walled m) (fun s b => NCA.forward s none b)
    (fun s => s.idL = ca.idL ∧ s.nbL = ca.nbL)
    (fun s b b' s' hs h => ?_) (fun s b r hs hb h => ?_) (fun s b hs hb => ?_) n ca u ⟨rfl, rfl⟩ hu
  · obtain ⟨_, _, _, _, _, _, h⟩ := NCA.forward_ok h; cases h; exact hs
  · refine nca_homogeneous s (hs.1 ▸ h1) (hs.2 ▸ h2) 1 b hb r ?_
    simp only [iterate, h, bind, Except.bind]
  · exact nca_forward_walled (e := id) s b
      (const_matches (by rw [hs.1, h1]; simp) hm (hs.1 ▸ r1) _ (hb.mask' s.thr))
      (const_matches (by rw [hs.2, h2]; simp) hm (hs.2 ▸ r2) _ (hb.mask' s.thr))

end

/-! ## Where walls are noticed -/

/-- C114: behind zeros there is something to notice even for a constant universe: it does not stay
constant. -/
theorem const_zeros_refuted : ∃ (ca : CCA ℚ 1 1) (u : Univ ℚ 1 1 3 3),
    ca.idL.mode = .zeros ∧ ca.nbL.mode = .zeros ∧ Homogeneous u ∧
    ∃ r, ca.forward u = .ok r ∧ ¬ Homogeneous r.1 := by
  refine ⟨Witness.ca1zeros, fun _ _ _ _ => 1/2, rfl, rfl, fun _ _ _ _ _ _ => rfl, _, rfl, fun h => ?_⟩
  have := h 0 0 0 0 1 0
  revert this; decide +kernel

/-- C114: no wall lets patterns pass: with `reflect` and with `replicate`, too, shifting and stepping
cannot be exchanged. -/
theorem roll_walls_refuted : ∀ m : PadMode, m ≠ .circular → ∃ (ca : CCA ℚ 1 1) (u : Univ ℚ 1 1 3 3),
    ca.idL.mode = m ∧ ca.nbL.mode = m ∧
    ∃ a b, ca.forward (roll 1 0 u) = .ok a ∧ ca.forward u = .ok b ∧ a.1 ≠ roll 1 0 b.1 := by
  intro m hm
  cases m with
  | circular => exact absurd rfl hm
  | zeros => exact roll_zeros_refuted
  | reflect =>
    refine ⟨Witness.ca1.walled .reflect, Witness.u3, rfl, rfl, _, _, rfl, rfl, fun h => ?_⟩
    have := congrFun (congrFun (congrFun (congrFun h 0) 0) 1) 0
    revert this; decide +kernel
  | replicate =>
    refine ⟨Witness.ca1.walled .replicate, Witness.u3, rfl, rfl, _, _, rfl, rfl, fun h => ?_⟩
    have := congrFun (congrFun (congrFun (congrFun h 0) 0) 1) 0
    revert this; decide +kernel

/-! ## Non-vacuity -/

/-- Two external and four internal channels between walls of any kind. -/
example (m : PadMode) (u : Univ ℝ 3 2 8 8) :
    ∃ u', (({ Witness.twoFour with mode := m } : CCADyn).toCCA 0).forward u =
      .ok (u', ({ Witness.twoFour with mode := m } : CCADyn).toCCA (0 + 0.5)) := by
  choose e he using fun n c => extends_exists 0 m (Spec.alive Witness.twoFour.thr u n c)
    (by decide : 2 ≤ 8) (by decide : 2 ≤ 8)
  obtain ⟨u', h, _⟩ := cca_wall_rule { Witness.twoFour with mode := m } 0 rfl rfl
    (by decide : 0 < 2) (by decide : (2 : Nat) ∣ 4) (by simp [Witness.twoFour]) (by simp [Witness.twoFour]) u
    (by constructor <;> refine ⟨by decide, fun _ => ?_, fun _ => ?_⟩ <;>
          first | exact (by decide : 1 ≤ 8) | exact (by decide : 1 < 8))
    (by constructor <;> refine ⟨by decide, fun _ => ?_, fun _ => ?_⟩ <;>
          first | exact (by decide : 1 ≤ 8) | exact (by decide : 1 < 8)) e he
  exact ⟨u', h⟩

theorem laplacian9_dihedral : Dihedral laplacian9 := by
  constructor <;> intro a b <;> fin_cases a <;> fin_cases b <;> simp [laplacian9]

/-- A radial automaton between mirrors. -/
example : Spec.Radial (identityLayer (α := ℝ) 1 1 .reflect)
      (.ofKernel 1 1 .reflect (2 * 1 + 1) laplacian9) ∧
    Spec.BetweenMirrors 8 8 (identityLayer (α := ℝ) 1 1 .reflect)
      (.ofKernel 1 1 .reflect (2 * 1 + 1) laplacian9) :=
  ⟨⟨⟨.reflect, 3, identityKernel, identityKernel_dihedral, rfl⟩,
      .reflect, 3, laplacian9, laplacian9_dihedral, rfl⟩,
    1, 1, identityKernel, laplacian9, identityKernel_dihedral.mirror, laplacian9_dihedral.mirror,
    by decide, rfl, rfl⟩

/-- On a 9x9 board there is a cell three kernel radii from the edges; both runs exist. -/
example : ∃ ru rv : Univ ℚ 1 1 9 9 × CCA ℚ 1 1,
    iterate CCA.forward 3 Witness.ca1 (fun _ _ i _ => if i = 4 then 1 else 1/2) = .ok ru ∧
    iterate CCA.forward 3 (Witness.ca1.walled .zeros) (fun _ _ i _ => if i = 4 then 1 else 1/2) =
      .ok rv ∧ ru.1 0 0 4 4 = rv.1 0 0 4 4 := by
  refine ⟨_, _, rfl, rfl, ?_⟩
  exact cca_far_from_walls Witness.ca1 .zeros 1 (by decide) (by decide) 3 _ _ _ rfl rfl 0 0 4 4
    (by decide) (by decide) (by decide) (by decide)

/-- A constant universe fits between the walls. -/
example : Spec.WallRoom 5 5 realCA.idL ∧ Spec.WallRoom 5 5 realCA.nbL :=
  ⟨⟨by show (3 - 1) / 2 < 5; decide, by show (3 - 1) / 2 < 5; decide⟩,
    by show (5 - 1) / 2 < 5; decide, by show (5 - 1) / 2 < 5; decide⟩

end Yuca
