import Verif.Props.SmallSteps
import Verif.Props.Evaluate
import Verif.Props.Evaluate2
import Verif.Props.Trajectories
import Mathlib.Topology.Order.Lattice
import Mathlib.Topology.Algebra.Order.Field
import Mathlib.Analysis.SpecialFunctions.Exp

/-!
# Runs depend continuously on every number of the rule (C110)

Over exact reals, on the torus, with fewer than four channels (with more, the alive mask jumps).
-/

namespace Yuca

open Arith Spec Filter Topology

variable {N H W : Nat} {ι : Type} {l : Filter ι}

namespace Spec

/-- Lists of one length whose entries tend to those of `v`. -/
def ListTends (l : Filter ι) (x : ι → List ℝ) (v : List ℝ) : Prop :=
  (∀ i, (x i).length = v.length) ∧ ∀ k, Tendsto (fun i => (x i).getD k 0) l (𝓝 (v.getD k 0))

/-- Functions that tend to `g`, also along arguments that move. -/
def FnTends (l : Filter ι) (f : ι → ℝ → ℝ) (g : ℝ → ℝ) : Prop :=
  ∀ x y, Tendsto x l (𝓝 y) → Tendsto (fun i => f i (x i)) l (𝓝 (g y))

/-- Universes whose cells tend to those of `u`. -/
def UnivTends {C : Nat} (l : Filter ι) (v : ι → Univ ℝ N C H W) (u : Univ ℝ N C H W) : Prop :=
  ∀ n e i j, Tendsto (fun k => v k n e i j) l (𝓝 (u n e i j))

/-- Growth functions of the same kinds whose parameters tend to those of `g`. -/
structure ActsTend (l : Filter ι) (f : ι → List (Act ℝ)) (g : List (Act ℝ)) : Prop where
  family : ∀ i, List.Forall₂ SameFamily g (f i)
  params : ListTends l (fun i => readActs (f i)) (readActs g)

end Spec

/-! ## Lists -/

theorem listTends_take {x : ι → List ℝ} {v : List ℝ} (h : ListTends l x v) (n : Nat) :
    ListTends l (fun i => (x i).take n) (v.take n) := by
  refine ⟨fun i => by simp [h.1 i], fun k => ?_⟩
  by_cases hk : k < n
  · simpa [List.getD_eq_getElem?_getD, List.getElem?_take, hk] using h.2 k
  · simp only [List.getD_eq_getElem?_getD, List.getElem?_take, hk, if_false]
    exact tendsto_const_nhds

theorem listTends_drop {x : ι → List ℝ} {v : List ℝ} (h : ListTends l x v) (n : Nat) :
    ListTends l (fun i => (x i).drop n) (v.drop n) := by
  refine ⟨fun i => by simp [h.1 i], fun k => ?_⟩
  simpa [List.getD_eq_getElem?_getD, List.getElem?_drop] using h.2 (n + k)

theorem sum_map_getD {β : Type} (f : β → ℝ) (d : β) (c : List β) :
    (c.map f).sum = ∑ k ∈ Finset.range c.length, f (c.getD k d) := by
  induction c with
  | nil => simp
  | cons a c ih => simp [Finset.sum_range_succ', ih, add_comm]

theorem sum_mapIdx_getD (f : Nat → ℝ → ℝ) (c : List ℝ) :
    (c.mapIdx f).sum = ∑ k ∈ Finset.range c.length, f k (c.getD k 0) := by
  induction c generalizing f with
  | nil => simp
  | cons a c ih =>
    rw [List.mapIdx_cons, List.sum_cons, ih, List.length_cons, Finset.sum_range_succ']
    simp [add_comm]

/-! ## Growth functions -/

theorem bump_tends {mu s : ι → ℝ} {mu₀ s₀ : ℝ} (hm : Tendsto mu l (𝓝 mu₀))
    (hs : Tendsto s l (𝓝 s₀)) (h : eps9 + s₀ ≠ 0) :
    FnTends l (fun i => bump (mu i) (s i)) (bump mu₀ s₀) := by
  intro x y hx
  unfold bump
  exact (Real.continuous_exp.tendsto _).comp
    ((((hx.sub hm).div (hs.const_add eps9) h).pow 2).neg.div_const 2)

theorem fnTends_double {f : ι → ℝ → ℝ} {g : ℝ → ℝ} (h : FnTends l f g) :
    FnTends l (fun i x => f i x * 2 - 1) fun x => g x * 2 - 1 := fun x y hx =>
  ((h x y hx).mul_const 2).sub_const 1

theorem fnTends_const {g : ℝ → ℝ} (h : Continuous g) : FnTends l (fun _ => g) g := fun _ y hx =>
  (h.tendsto y).comp hx

theorem fnTends_comp {f : ι → ℝ → ℝ} {g : ℝ → ℝ} (h : FnTends l f g) {c : ℝ → ℝ}
    (hc : Continuous c) : FnTends l (fun i x => c (f i x)) fun x => c (g x) := fun x y hx =>
  (hc.tendsto _).comp (h x y hx)

theorem clampR_continuous (lo hi : ℝ) : Continuous (clampR lo hi) := by
  unfold clampR; fun_prop

theorem tanh_continuous : Continuous Real.tanh := by
  have : Real.tanh = fun x => 1 - 1 / (1 + Real.exp (2 * x)) * 2 := funext tanh_logistic
  rw [this]
  refine continuous_const.sub (Continuous.mul ?_ continuous_const)
  refine Continuous.div₀ (by fun_prop) (by fun_prop) fun x => ?_
  positivity

theorem mixture_tends {c : ι → List (ℝ × ℝ × ℝ)} {c₀ : List (ℝ × ℝ × ℝ)} {d : ℝ × ℝ × ℝ}
    (hlen : ∀ i, (c i).length = c₀.length)
    (h1 : ∀ k < c₀.length, Tendsto (fun i => ((c i).getD k d).1) l (𝓝 (c₀.getD k d).1))
    (h2 : ∀ k < c₀.length, Tendsto (fun i => ((c i).getD k d).2.1) l (𝓝 (c₀.getD k d).2.1))
    (h3 : ∀ k < c₀.length, Tendsto (fun i => ((c i).getD k d).2.2) l (𝓝 (c₀.getD k d).2.2))
    (hs : ∀ a ∈ c₀, eps9 + a.2.2 ≠ 0) (m : Bool) :
    FnTends l (fun i => mixtureFn (c i) m) (mixtureFn c₀ m) := by
  have h : FnTends l (fun i x => ((c i).map fun c => c.1 * bump c.2.1 c.2.2 x).sum)
      fun x => (c₀.map fun c => c.1 * bump c.2.1 c.2.2 x).sum := by
    intro x y hx
    simp only [sum_map_getD _ d, hlen]
    refine tendsto_finsetSum _ fun k hk => ?_
    rw [Finset.mem_range] at hk
    refine (h1 k hk).mul (bump_tends (h2 k hk) (h3 k hk) (hs _ ?_) x y hx)
    rw [List.getD_eq_getElem?_getD, List.getElem?_eq_getElem hk]
    exact List.getElem_mem hk
  cases m
  · exact fnTends_comp h (clampR_continuous 0 1)
  · exact fnTends_comp (fnTends_double h) (clampR_continuous (-1) 1)

theorem mixture_reads (c : List (ℝ × ℝ × ℝ)) (m : Bool) (k : Nat) (hk : k < c.length)
    (d : ℝ × ℝ × ℝ) :
    (readTensors (Act.mixture c m).tensors).getD (2 * k) 0 = (c.getD k d).2.1 ∧
      (readTensors (Act.mixture c m).tensors).getD (2 * k + 1) 0 = (c.getD k d).2.2 := by
  simp only [Act.tensors, readTensors]
  induction c generalizing k with
  | nil => simp at hk
  | cons a c ih =>
    cases k with
    | zero => simp
    | succ k =>
      have := ih k (by simpa using hk)
      simpa [Nat.mul_succ] using this

theorem reads_getD_amp {c c' : List (ℝ × ℝ × ℝ)} (h : c.map (·.1) = c'.map (·.1)) (k : Nat)
    (d : ℝ × ℝ × ℝ) : (c.getD k d).1 = (c'.getD k d).1 := by
  have hg : ∀ c : List (ℝ × ℝ × ℝ), (c.getD k d).1 = (c.map (·.1)).getD k d.1 := fun c => by
    simp only [List.getD_eq_getElem?_getD, List.getElem?_map]
    cases c[k]? <;> rfl
  rw [hg, hg, h]

/-- Growth functions of one kind whose parameters converge do so as functions. -/
theorem act_tends {a : ι → Act ℝ} {a₀ : Act ℝ} (hs : Sound a₀) (hf : ∀ i, SameFamily a₀ (a i))
    (hp : ListTends l (fun i => readTensors (a i).tensors) (readTensors a₀.tensors)) :
    FnTends l (fun i => (a i).eval) a₀.eval := by
  cases a₀ with
  | gaussian mu s m =>
    have : ∀ i, ∃ mu' s', a i = .gaussian mu' s' m := fun i => by
      have := hf i
      generalize a i = b at this
      cases this <;> exact ⟨_, _, rfl⟩
    choose mu' s' h using this
    simp only [h, Act.tensors, readTensors] at hp ⊢
    have hb := bump_tends (by simpa using hp.2 0) (by simpa using hp.2 1) hs
    cases m
    · exact hb
    · exact fnTends_double hb
  | doGaussian mu s dx m =>
    have : ∀ i, ∃ mu' s', a i = .doGaussian mu' s' dx m := fun i => by
      have := hf i
      generalize a i = b at this
      cases this <;> exact ⟨_, _, rfl⟩
    choose mu' s' h using this
    simp only [h, Act.tensors, readTensors] at hp ⊢
    have hb := bump_tends (by simpa using hp.2 0) (by simpa using hp.2 1) hs
    cases m
    · exact fun x y hx => (hb _ _ (hx.add_const dx)).sub (hb _ _ (hx.sub_const dx))
    · exact fun x y hx => ((hb _ _ (hx.add_const dx)).sub ((hb _ _ (hx.sub_const dx)).mul_const 2)).sub_const 1
  | doubleGaussian m₀ m₁ s₀ s₁ m =>
    have : ∀ i, ∃ p q r s, a i = .doubleGaussian p q r s m := fun i => by
      have := hf i
      generalize a i = b at this
      cases this <;> exact ⟨_, _, _, _, rfl⟩
    choose p q r s h using this
    simp only [h, Act.tensors, readTensors] at hp ⊢
    have hb := bump_tends (by simpa using hp.2 0) (by simpa using hp.2 2) hs.1
    have hb' := bump_tends (by simpa using hp.2 1) (by simpa using hp.2 3) hs.2
    have h2 : FnTends l (fun i x => bump (p i) (r i) x + bump (q i) (s i) x)
        fun x => bump m₀ s₀ x + bump m₁ s₁ x := fun x y hx => (hb x y hx).add (hb' x y hx)
    cases m
    · exact fnTends_comp h2 (clampR_continuous 0 1)
    · exact fnTends_comp (fnTends_double h2) (clampR_continuous (-1) 1)
  | mixture c₀ m =>
    have : ∀ i, ∃ c, a i = .mixture c m ∧ c₀.map (·.1) = c.map (·.1) := fun i => by
      have := hf i
      generalize a i = b at this
      cases this with
      | mixture _ c _ h => exact ⟨c, rfl, h⟩
      | same => exact ⟨_, rfl, rfl⟩
    choose c h hc using this
    have hlen : ∀ i, (c i).length = c₀.length := fun i => by
      simpa using (congrArg List.length (hc i)).symm
    simp only [h] at hp ⊢
    refine mixture_tends (d := (0, 0, 0)) hlen (fun k hk => ?_) (fun k hk => ?_) (fun k hk => ?_)
      hs m
    · simp only [reads_getD_amp (hc _).symm]
      exact tendsto_const_nhds
    · have := hp.2 (2 * k)
      rw [(mixture_reads c₀ m k hk (0, 0, 0)).1] at this
      refine this.congr fun i => ?_
      exact (mixture_reads (c i) m k (by rw [hlen]; exact hk) (0, 0, 0)).1
    · have := hp.2 (2 * k + 1)
      rw [(mixture_reads c₀ m k hk (0, 0, 0)).2] at this
      refine this.congr fun i => ?_
      exact (mixture_reads (c i) m k (by rw [hlen]; exact hk) (0, 0, 0)).2
  | polynomial c₀ m =>
    have : ∀ i, ∃ c, a i = .polynomial c m := fun i => by
      have := hf i
      generalize a i = b at this
      cases this <;> exact ⟨_, rfl⟩
    choose c h using this
    simp only [h, Act.tensors, readTensors, List.flatten_cons, List.flatten_nil,
      List.append_nil] at hp ⊢
    have h2 : FnTends l (fun i x => ((c i).mapIdx fun k v => v * x ^ k).sum)
        fun x => (c₀.mapIdx fun k v => v * x ^ k).sum := by
      intro x y hx
      simp only [sum_mapIdx_getD, hp.1]
      exact tendsto_finsetSum _ fun k _ => (hp.2 k).mul (hx.pow k)
    cases m
    · exact h2
    · exact fnTends_double h2
  | smoothIntervals is al m =>
    have h : ∀ i, a i = .smoothIntervals is al m := fun i => by
      have := hf i
      generalize a i = b at this
      cases this; rfl
    simp only [h]
    refine fnTends_const ?_
    have hc : Continuous fun x => (is.map fun b => sigmoid1 b.1 al x * (1 - sigmoid1 b.2 al x)).sum := by
      simp only [sum_map_getD _ ((0 : ℝ), (0 : ℝ))]
      refine continuous_finsetSum _ fun k _ => ?_
      have hs : ∀ mu, Continuous (sigmoid1 mu al) := fun mu => by
        unfold sigmoid1
        refine Continuous.div₀ (by fun_prop) (by fun_prop) fun x => ?_
        positivity
      exact (hs _).mul (continuous_const.sub (hs _))
    cases m
    · exact hc
    · exact (hc.mul continuous_const).sub continuous_const
  | identity =>
    have h : ∀ i, a i = .identity := fun i => by
      have := hf i
      generalize a i = b at this
      cases this; rfl
    simp only [h]
    exact fnTends_const continuous_id
  | relu =>
    have h : ∀ i, a i = .relu := fun i => by
      have := hf i
      generalize a i = b at this
      cases this; rfl
    simp only [h]
    exact fnTends_const (by simp only [Act.eval]; fun_prop)
  | tanh =>
    have h : ∀ i, a i = .tanh := fun i => by
      have := hf i
      generalize a i = b at this
      cases this; rfl
    simp only [h]
    exact fnTends_const tanh_continuous

theorem getD_get (g : List (Act ℝ)) {n : Nat} (h : g.length = n) (o : Fin n) (d : Act ℝ) :
    g.get (Fin.cast h.symm o) = g.getD o.val d := by
  subst h
  simp [List.getD_eq_getElem?_getD]

/-- The same for lists of them. -/
theorem acts_tend {f : ι → List (Act ℝ)} {g : List (Act ℝ)} (hs : ∀ a ∈ g, Sound a)
    (h : ActsTend l f g) (k : Nat) :
    FnTends l (fun i => ((f i).getD k .identity).eval) (g.getD k .identity).eval := by
  induction g generalizing f k with
  | nil =>
    have : ∀ i, f i = [] := fun i => by
      have := h.family i
      generalize f i = b at this
      cases this; rfl
    simp only [this]
    exact fnTends_const continuous_id
  | cons a g ih =>
    have : ∀ i, ∃ b t, f i = b :: t ∧ SameFamily a b ∧ List.Forall₂ SameFamily g t := fun i => by
      have := h.family i
      generalize f i = b at this
      cases this with
      | cons h1 h2 => exact ⟨_, _, rfl, h1, h2⟩
    choose b t e hb ht using this
    have hp := h.params
    simp only [e, readActs_cons] at hp ⊢
    have hlen : ∀ i, (readTensors (b i).tensors).length = (readTensors a.tensors).length :=
      fun i => by
        have := family_shape (hb i)
        rw [readTensors_length, readTensors_length]
        unfold size
        rw [this]
    cases k with
    | zero =>
      have h1 := listTends_take hp (readTensors a.tensors).length
      simp only [List.take_left'] at h1
      have h2 : ∀ i, (readTensors (b i).tensors ++ readActs (t i)).take
          (readTensors a.tensors).length = readTensors (b i).tensors := fun i =>
        List.take_left' (hlen i)
      simp only [h2] at h1
      exact act_tends (hs a List.mem_cons_self) hb h1
    | succ k =>
      have h1 := listTends_drop hp (readTensors a.tensors).length
      have h2 : ∀ i, (readTensors (b i).tensors ++ readActs (t i)).drop
          (readTensors a.tensors).length = readActs (t i) := fun i => List.drop_left' (hlen i)
      simp only [h2, List.drop_left'] at h1
      exact ih (fun c hc => hs c (List.mem_cons_of_mem _ hc)) ⟨ht, h1⟩ k

/-! ## Steps -/

theorem gathered_tends {r : Nat} {κ : ι → Fin (2 * r + 1) → Fin (2 * r + 1) → ℝ}
    {κ₀ : Fin (2 * r + 1) → Fin (2 * r + 1) → ℝ}
    (hκ : ∀ a b, Tendsto (fun k => κ k a b) l (𝓝 (κ₀ a b))) {x : ι → Grid ℝ H W} {x₀ : Grid ℝ H W}
    (hx : ∀ i j, Tendsto (fun k => x k i j) l (𝓝 (x₀ i j))) (i : Fin H) (j : Fin W) :
    Tendsto (fun k => gathered (κ k) (x k) i j) l (𝓝 (gathered κ₀ x₀ i j)) :=
  tendsto_finsetSum _ fun a _ => tendsto_finsetSum _ fun b _ => (hκ a b).mul (hx _ _)

/-- The automaton with other growth functions, another kernel of the same radius and another step
size. -/
def Spec.Revised (d : CCADyn) (g p : List (Act ℝ))
    (κ : Fin (2 * d.nbLayer.1 + 1) → Fin (2 * d.nbLayer.1 + 1) → ℝ) (h : ℝ) : CCADyn :=
  { d with genesis := g, persistence := p, nbLayer := ⟨d.nbLayer.1, κ⟩, dt := h }

theorem revised_plain {d : CCADyn} (p : Plain d) {g q : List (Act ℝ)} (hg : g.length = d.int)
    (hq : q.length = d.int) (κ : Fin (2 * d.nbLayer.1 + 1) → Fin (2 * d.nbLayer.1 + 1) → ℝ) (h : ℝ) :
    Plain (Revised d g q κ h) :=
  ⟨p.mode, p.idLayer, p.functional, p.ext_pos, p.dvd, hg, hq⟩

theorem family_length {f g : List (Act ℝ)} (h : List.Forall₂ SameFamily g f) :
    f.length = g.length := h.length_eq.symm

section

variable {d : CCADyn}

theorem clip_tends {x : ι → ℝ} {y : ℝ} (h : Tendsto x l (𝓝 y)) :
    Tendsto (fun k => clip (x k)) l (𝓝 (clip y)) := by
  have : Continuous clip := by unfold clip; fun_prop
  exact (this.tendsto y).comp h

/-- One step of a `CCA`, of rules and universes that converge. -/
theorem growth_tends (p : Plain d) {g q : ι → List (Act ℝ)}
    {κ : ι → Fin (2 * d.nbLayer.1 + 1) → Fin (2 * d.nbLayer.1 + 1) → ℝ} {h : ι → ℝ}
    (hsound : ∀ a ∈ d.genesis ++ d.persistence, Sound a)
    (hg : ActsTend l g d.genesis) (hq : ActsTend l q d.persistence)
    (hκ : ∀ a b, Tendsto (fun k => κ k a b) l (𝓝 (d.nbLayer.2 a b)))
    (hp : ∀ k, Plain (Revised d (g k) (q k) (κ k) (h k)))
    {v : ι → Univ ℝ N d.ext H W} {u : Univ ℝ N d.ext H W} (hv : UnivTends l v u) :
    UnivTends l (fun k => growthOf (d := Revised d (g k) (q k) (κ k) (h k)) (hp k) (v k))
      (growthOf p u) ∧
    UnivTends l (fun k => leniaRate (d := Revised d (g k) (q k) (κ k) (h k)) (hp k) (v k))
      (leniaRate p u) := by
  have hx : ∀ n e i j, Tendsto (fun k => gathered (κ k) (v k n e) i j) l
      (𝓝 (gathered d.nbLayer.2 (u n e) i j)) := fun n e i j => gathered_tends hκ (hv n e) i j
  have hgen : ∀ (o : Fin d.int) n e i j, Tendsto (fun k => ((g k).get (Fin.cast (hp k).gen.symm o)).eval
      (gathered (κ k) (v k n e) i j)) l (𝓝 ((d.genesis.get (Fin.cast p.gen.symm o)).eval
        (gathered d.nbLayer.2 (u n e) i j))) := fun o n e i j => by
    have := acts_tend (fun a ha => hsound a (List.mem_append_left _ ha)) hg o.val _ _ (hx n e i j)
    rw [getD_get d.genesis p.gen o .identity]
    refine this.congr fun k => ?_
    rw [getD_get (g k) (hp k).gen o .identity]
  have hper : ∀ (o : Fin d.int) n e i j, Tendsto (fun k => ((q k).get (Fin.cast (hp k).per.symm o)).eval
      (gathered (κ k) (v k n e) i j)) l (𝓝 ((d.persistence.get (Fin.cast p.per.symm o)).eval
        (gathered d.nbLayer.2 (u n e) i j))) := fun o n e i j => by
    have := acts_tend (fun a ha => hsound a (List.mem_append_right _ ha)) hq o.val _ _ (hx n e i j)
    rw [getD_get d.persistence p.per o .identity]
    refine this.congr fun k => ?_
    rw [getD_get (q k) (hp k).per o .identity]
  constructor
  · intro n e i j
    have he : ∀ k, growthOf (d := Revised d (g k) (q k) (κ k) (h k)) (hp k) (v k) n e i j =
        1 / ((d.ext : ℝ) * d.int) * ∑ o : Fin d.int,
          ((1 - v k n (source p.ext_pos p.dvd o) i j) *
              ((g k).get (Fin.cast (hp k).gen.symm o)).eval
                (gathered (κ k) (v k n (source p.ext_pos p.dvd o)) i j) +
            v k n (source p.ext_pos p.dvd o) i j *
              ((q k).get (Fin.cast (hp k).per.symm o)).eval
                (gathered (κ k) (v k n (source p.ext_pos p.dvd o)) i j)) := fun k => rfl
    refine Tendsto.congr (fun k => (he k).symm) ?_
    refine Tendsto.const_mul _ (tendsto_finsetSum _ fun o _ => ?_)
    exact (((hv n _ i j).const_sub 1).mul (hgen o n _ i j)).add ((hv n _ i j).mul (hper o n _ i j))
  · intro n e i j
    have he : ∀ k, leniaRate (d := Revised d (g k) (q k) (κ k) (h k)) (hp k) (v k) n e i j =
        1 / ((d.ext : ℝ) * d.int) * ∑ o : Fin d.int, ((g k).get (Fin.cast (hp k).gen.symm o)).eval
          (gathered (κ k) (v k n (source p.ext_pos p.dvd o)) i j) := fun k => rfl
    refine Tendsto.congr (fun k => (he k).symm) ?_
    exact Tendsto.const_mul _ (tendsto_finsetSum _ fun o _ => hgen o n _ i j)

theorem eulerStep_tends {C : Nat} {F : ι → Univ ℝ N C H W → Univ ℝ N C H W}
    {G : Univ ℝ N C H W → Univ ℝ N C H W} {h : ι → ℝ} {h₀ : ℝ} (hh : Tendsto h l (𝓝 h₀))
    {v : ι → Univ ℝ N C H W} {u : Univ ℝ N C H W} (hv : UnivTends l v u)
    (hF : UnivTends l (fun k => F k (v k)) (G u)) :
    UnivTends l (fun k => eulerStep (F k) (h k) (v k)) (eulerStep G h₀ u) := fun n e i j =>
  clip_tends ((hv n e i j).add (hh.mul (hF n e i j)))

theorem eulerRun_tends {C : Nat} {F : ι → Univ ℝ N C H W → Univ ℝ N C H W}
    {G : Univ ℝ N C H W → Univ ℝ N C H W} {h : ι → ℝ} {h₀ : ℝ} (hh : Tendsto h l (𝓝 h₀))
    (hF : ∀ v u, UnivTends l v u → UnivTends l (fun k => F k (v k)) (G u)) (n : Nat) :
    ∀ {v : ι → Univ ℝ N C H W} {u : Univ ℝ N C H W}, UnivTends l v u →
      UnivTends l (fun k => eulerRun (F k) (List.replicate n (h k)) (v k))
        (eulerRun G (List.replicate n h₀) u) := by
  induction n with
  | zero => intro v u hv; exact hv
  | succ n ih =>
    intro v u hv
    simp only [List.replicate_succ, eulerRun]
    exact ih (eulerStep_tends hh hv (hF v u hv))

/-- C110: if growth functions, kernels, step sizes and starts converge, so do the universes after
`n` steps of the `CCA`, and of the `Lenia`. -/
theorem runs_tend (p : Plain d) (hc : d.ext < 4) {g q : ι → List (Act ℝ)}
    {κ : ι → Fin (2 * d.nbLayer.1 + 1) → Fin (2 * d.nbLayer.1 + 1) → ℝ} {h : ι → ℝ}
    (hsound : ∀ a ∈ d.genesis ++ d.persistence, Sound a)
    (hg : ActsTend l g d.genesis) (hq : ActsTend l q d.persistence)
    (hκ : ∀ a b, Tendsto (fun k => κ k a b) l (𝓝 (d.nbLayer.2 a b)))
    (hh : Tendsto h l (𝓝 d.dt)) (t : ℝ) (n : Nat) {v : ι → Univ ℝ N d.ext H W}
    {u : Univ ℝ N d.ext H W} (hv : UnivTends l v u) (hH : 1 ≤ H ∧ d.nbLayer.1 ≤ H)
    (hW : 1 ≤ W ∧ d.nbLayer.1 ≤ W) :
    (∃ (w : Univ ℝ N d.ext H W) (s : CCA ℝ d.ext d.int) (w' : ι → Univ ℝ N d.ext H W)
      (s' : ι → CCA ℝ d.ext d.int), iterate CCA.forward n (d.toCCA t) u = .ok (w, s) ∧
      (∀ k, iterate CCA.forward n ((Revised d (g k) (q k) (κ k) (h k)).toCCA t) (v k) =
        .ok (w' k, s' k)) ∧ UnivTends l w' w) ∧
    ∃ (w : Univ ℝ N d.ext H W) (s : CCA ℝ d.ext d.int) (w' : ι → Univ ℝ N d.ext H W)
      (s' : ι → CCA ℝ d.ext d.int), iterate CCA.leniaForward n (d.toCCA t) u = .ok (w, s) ∧
      (∀ k, iterate CCA.leniaForward n ((Revised d (g k) (q k) (κ k) (h k)).toCCA t) (v k) =
        .ok (w' k, s' k)) ∧ UnivTends l w' w := by
  have hp : ∀ k, Plain (Revised d (g k) (q k) (κ k) (h k)) := fun k =>
    revised_plain p ((family_length (hg.family k)).trans p.gen)
      ((family_length (hq.family k)).trans p.per) _ _
  constructor
  · exact ⟨_, _, _, _, cca_steps p hc n t u hH hW, fun k => cca_steps (hp k) hc n t (v k) hH hW,
      eulerRun_tends hh (fun v u hv => (growth_tends p hsound hg hq hκ hp hv).1) n hv⟩
  · exact ⟨_, _, _, _, lenia_steps p hc n t u hH hW, fun k => lenia_steps (hp k) hc n t (v k) hH hW,
      eulerRun_tends hh (fun v u hv => (growth_tends p hsound hg hq hκ hp hv).2) n hv⟩

end

/-! ## Kernels -/

theorem triples_reads : ∀ (ps : List ℝ) (cs : List (ℝ × ℝ × ℝ)),
    mixtureComponents.triples ps = .ok cs → ps.length = 3 * cs.length ∧ ∀ k < cs.length,
      cs.getD k (0, 0, 0) = (ps.getD (3 * k) 0, ps.getD (3 * k + 1) 0, ps.getD (3 * k + 2) 0)
  | [], cs, h => by simp [mixtureComponents.triples] at h; subst h; simp
  | [_], cs, h => by simp [mixtureComponents.triples] at h
  | [_, _], cs, h => by simp [mixtureComponents.triples] at h
  | a :: m :: s :: rest, cs, h => by
    rw [mixtureComponents.triples] at h
    obtain ⟨r, hr, h2⟩ := bind_ok h
    cases h2
    obtain ⟨i1, i2⟩ := triples_reads rest r hr
    refine ⟨by simp [i1]; omega, fun k hk => ?_⟩
    cases k with
    | zero => simp
    | succ k =>
      have := i2 k (by simpa using hk)
      simpa [Nat.mul_succ] using this

theorem pairs_reads : ∀ (ps : List ℝ) (cs : List (ℝ × ℝ × ℝ)),
    mixtureComponents.pairs (1 : ℝ) ps = .ok cs → ps.length = 2 * cs.length ∧ ∀ k < cs.length,
      cs.getD k (0, 0, 0) = (1, ps.getD (2 * k) 0, ps.getD (2 * k + 1) 0)
  | [], cs, h => by simp [mixtureComponents.pairs] at h; subst h; simp
  | [_], cs, h => by simp [mixtureComponents.pairs] at h
  | m :: s :: rest, cs, h => by
    rw [mixtureComponents.pairs] at h
    obtain ⟨r, hr, h2⟩ := bind_ok h
    cases h2
    obtain ⟨i1, i2⟩ := pairs_reads rest r hr
    refine ⟨by simp [i1]; omega, fun k hk => ?_⟩
    cases k with
    | zero => simp
    | succ k =>
      have := i2 k (by simpa using hk)
      simpa [Nat.mul_succ] using this

theorem normalise_tends {r : Nat} {κ : ι → Fin (2 * r + 1) → Fin (2 * r + 1) → ℝ}
    {κ₀ : Fin (2 * r + 1) → Fin (2 * r + 1) → ℝ}
    (h : ∀ a b, Tendsto (fun k => κ k a b) l (𝓝 (κ₀ a b))) (a b : Fin (2 * r + 1)) :
    Tendsto (fun k => normaliseKernel (κ k) a b) l (𝓝 (normaliseKernel κ₀ a b)) := by
  have hm : Tendsto (fun k => kernelMin (κ k)) l (𝓝 (kernelMin κ₀)) := by
    unfold kernelMin
    exact Tendsto.finset_inf'_nhds_apply _ fun i _ => h i.1 i.2
  have hd : ∀ a b, Tendsto (fun k => κ k a b - kernelMin (κ k)) l (𝓝 (κ₀ a b - kernelMin κ₀)) :=
    fun a b => (h a b).sub hm
  refine (hd a b).div ((tendsto_finsetSum _ fun a _ => tendsto_finsetSum _ fun b _ =>
    hd a b).const_add eps9) ?_
  have h0 : 0 ≤ ∑ a, ∑ b, (κ₀ a b - kernelMin κ₀) := Finset.sum_nonneg fun a _ =>
    Finset.sum_nonneg fun b _ => sub_nonneg.2 (Finset.inf'_le _ (Finset.mem_univ (a, b)))
  have : (0 : ℝ) < eps9 := by unfold eps9; norm_num
  positivity

/-- C110: the kernels made from parameter vectors that converge exist and converge. -/
theorem kernel_tends {r : Nat} {ps : ι → List ℝ} {ps₀ : List ℝ} (h : ListTends l ps ps₀)
    {K : AnyKernel} (hK : gaussianMixtureKernel r ps₀ = .ok K)
    (hs : ∀ cs, mixtureComponents 1 ps₀ = .ok cs → ∀ c ∈ cs, eps9 + c.2.2 ≠ 0) :
    ∃ (κ₀ : Fin (2 * r + 1) → Fin (2 * r + 1) → ℝ) (κ : ι → Fin (2 * r + 1) → Fin (2 * r + 1) → ℝ),
      K = ⟨r, κ₀⟩ ∧ (∀ k, gaussianMixtureKernel r (ps k) = .ok ⟨r, κ k⟩) ∧
      ∀ a b, Tendsto (fun k => κ k a b) l (𝓝 (κ₀ a b)) := by
  have hform : ∀ ps, gaussianMixtureKernel r ps =
      match mixtureComponents 1 ps with
      | .error e => .error e
      | .ok cs => if cs = [] then .error .index else if r = 0 then .error .zeroDiv else
          .ok ⟨r, normaliseKernel fun a b => mixtureFn cs false (radialGrid r a b)⟩ := by
    intro ps
    have key : gaussianMixtureKernel r ps =
        match kernelFn "GaussianMixture" { parameters := some ps } with
        | .error e => .error e
        | .ok f =>
          if r = 0 then .error .zeroDiv
          else .ok ⟨r, normaliseKernel fun a b => f (radialGrid r a b)⟩ := by
      unfold gaussianMixtureKernel getKernel
      simp
      rfl
    have key2 : kernelFn "GaussianMixture" { parameters := some ps } =
        (mixtureComponents 1 ps >>= fun cs =>
          if cs = [] then .error .index else .ok (mixtureFn cs false)) := by
      unfold kernelFn
      simp [pure, Except.pure]
    rw [key, key2]
    cases mixtureComponents 1 ps with
    | error e => rfl
    | ok cs =>
      simp only [Bind.bind, Except.bind]
      by_cases hc : cs = []
      · rw [if_pos hc, if_pos hc]
      · rw [if_neg hc, if_neg hc]
  rw [hform] at hK
  cases hm : mixtureComponents 1 ps₀ with
  | error e => rw [hm] at hK; cases hK
  | ok cs₀ =>
  rw [hm] at hK
  dsimp only at hK
  split at hK
  · cases hK
  rename_i hne
  split at hK
  · cases hK
  rename_i hr
  cases hK
  have key : ∃ cs : ι → List (ℝ × ℝ × ℝ), (∀ k, mixtureComponents 1 (ps k) = .ok (cs k)) ∧
      (∀ k, (cs k).length = cs₀.length) ∧ ∀ k < cs₀.length,
        Tendsto (fun i => ((cs i).getD k (0, 0, 0)).1) l (𝓝 (cs₀.getD k (0, 0, 0)).1) ∧
        Tendsto (fun i => ((cs i).getD k (0, 0, 0)).2.1) l (𝓝 (cs₀.getD k (0, 0, 0)).2.1) ∧
        Tendsto (fun i => ((cs i).getD k (0, 0, 0)).2.2) l (𝓝 (cs₀.getD k (0, 0, 0)).2.2) := by
    unfold mixtureComponents at hm ⊢
    simp only [h.1]
    split at hm
    · rename_i h3
      obtain ⟨a1, a2⟩ := triples_reads _ _ hm
      have : ∀ k, ∃ cs, mixtureComponents.triples (ps k) = .ok cs := fun k =>
        (triples_ok _ (by rw [h.1 k]; exact h3)).imp fun _ h => h.1
      choose cs hcs using this
      have hlen : ∀ k, (cs k).length = cs₀.length := fun k => by
        have := (triples_reads _ _ (hcs k)).1
        rw [h.1 k] at this
        omega
      refine ⟨cs, fun k => by rw [if_pos h3]; exact hcs k, hlen, fun k hk => ?_⟩
      have hk' : ∀ i, (cs i).getD k (0, 0, 0) = _ := fun i =>
        (triples_reads _ _ (hcs i)).2 k (by rw [hlen]; exact hk)
      simp only [hk', a2 k hk]
      exact ⟨h.2 _, h.2 _, h.2 _⟩
    · rename_i h3
      obtain ⟨a1, a2⟩ := pairs_reads _ _ hm
      have : ∀ k, ∃ cs, mixtureComponents.pairs (1 : ℝ) (ps k) = .ok cs := fun k =>
        (pairs_ok 1 _ (by rw [h.1 k]; omega)).imp fun _ h => h.1
      choose cs hcs using this
      have hlen : ∀ k, (cs k).length = cs₀.length := fun k => by
        have := (pairs_reads _ _ (hcs k)).1
        rw [h.1 k] at this
        omega
      refine ⟨cs, fun k => by rw [if_neg h3]; exact hcs k, hlen, fun k hk => ?_⟩
      have hk' : ∀ i, (cs i).getD k (0, 0, 0) = _ := fun i =>
        (pairs_reads _ _ (hcs i)).2 k (by rw [hlen]; exact hk)
      simp only [hk', a2 k hk]
      exact ⟨tendsto_const_nhds, h.2 _, h.2 _⟩
  obtain ⟨cs, h1, h2, h3⟩ := key
  refine ⟨_, fun k => normaliseKernel fun a b => mixtureFn (cs k) false (radialGrid r a b), rfl,
    fun k => ?_, ?_⟩
  · rw [hform, h1]
    have : cs k ≠ [] := fun e => hne (List.eq_nil_of_length_eq_zero (by rw [← h2 k, e]; rfl))
    simp only [this, hr, if_false]
  · refine normalise_tends fun a b => ?_
    exact mixture_tends h2 (fun k hk => (h3 k hk).1) (fun k hk => (h3 k hk).2.1)
      (fun k hk => (h3 k hk).2.2) (hs _ hm) false _ _ tendsto_const_nhds

/-! ## Parameter vectors -/

theorem ofFn_getD {n : Nat} (w : Fin n → ℝ) (k : Nat) :
    (List.ofFn w).getD k 0 = if h : k < n then w ⟨k, h⟩ else 0 := by
  by_cases h : k < n <;> simp [List.getD_eq_getElem?_getD, h]

theorem ofFn_tends {n : Nat} (w : Fin n → ℝ) :
    ListTends (𝓝 w) (fun x : Fin n → ℝ => List.ofFn x) (List.ofFn w) := by
  refine ⟨fun i => by simp, fun k => ?_⟩
  simp only [ofFn_getD]
  split
  · exact (continuous_apply _).tendsto w
  · exact tendsto_const_nhds

theorem tends_eventually {C : Nat} {f : ι → Univ ℝ N C H W} {u : Univ ℝ N C H W}
    (h : UnivTends l f u) {ε : ℝ} (hε : 0 < ε) :
    ∀ᶠ x in l, ∀ a b i j, |f x a b i j - u a b i j| < ε := by
  simp only [eventually_all]
  intro a b i j
  have := (Metric.tendsto_nhds.1 (h a b i j)) ε hε
  simpa only [Real.dist_eq] using this

theorem pair_dist {C m : Nat} {x w : Fin m → ℝ} {u' u : Univ ℝ N C H W} {δ : ℝ} (hδ : 0 < δ)
    (hclose : ∀ k, |(List.ofFn x).getD k 0 - (List.ofFn w).getD k 0| < δ)
    (huclose : ∀ a b i j, |u' a b i j - u a b i j| < δ) : dist (x, u') (w, u) < δ := by
  rw [Prod.dist_eq, max_lt_iff]
  constructor
  · rw [dist_pi_lt_iff hδ]
    intro k
    have := hclose k.val
    rw [ofFn_getD, ofFn_getD, dif_pos k.isLt, dif_pos k.isLt] at this
    rw [Real.dist_eq]
    exact this
  · rw [dist_pi_lt_iff hδ]; intro a
    rw [dist_pi_lt_iff hδ]; intro b
    rw [dist_pi_lt_iff hδ]; intro i
    rw [dist_pi_lt_iff hδ]; intro j
    rw [Real.dist_eq]
    exact huclose a b i j

theorem forall₂_self (as : List (Act ℝ)) : List.Forall₂ SameFamily as as := by
  induction as with
  | nil => exact .nil
  | cons a as ih => exact .cons (.same a) ih

/-- What `set_params` does to the automaton: other growth functions and another kernel. -/
theorem setParams_revises {o : CCAObj} {ks : List ℝ} (hk : o.kernelParams = .vec ks) {v : List ℝ}
    (hv : v.length = (readActs o.genesis).length + (readActs o.persistence).length + ks.length)
    {κ : Fin (2 * o.kernelRadius + 1) → Fin (2 * o.kernelRadius + 1) → ℝ}
    (hκ : gaussianMixtureKernel o.kernelRadius
      (v.drop ((readActs o.genesis).length + (readActs o.persistence).length)) =
        .ok ⟨o.kernelRadius, κ⟩) :
    ∃ gs ps, o.setParams v =
        ({ o with genesis := gs, persistence := ps
                  kernelParams := .vec (v.drop ((readActs o.genesis).length +
                    (readActs o.persistence).length))
                  nbKernel := ⟨o.kernelRadius, κ⟩, nbLayer := ⟨o.kernelRadius, κ⟩ }, none) ∧
      List.Forall₂ SameFamily o.genesis gs ∧ List.Forall₂ SameFamily o.persistence ps ∧
      readActs gs = v.take (readActs o.genesis).length ∧
      readActs ps = (v.drop (readActs o.genesis).length).take (readActs o.persistence).length := by
  obtain ⟨gs, h1, h2, h3⟩ := writeActs_enough o.genesis v (by omega)
  obtain ⟨ps, g1, g2, g3⟩ := writeActs_enough o.persistence (v.drop (readActs o.genesis).length)
    (by rw [List.length_drop]; omega)
  rw [List.drop_drop] at g1
  have ht : (v.drop ((readActs o.genesis).length + (readActs o.persistence).length)).take
      ks.length = v.drop ((readActs o.genesis).length + (readActs o.persistence).length) :=
    List.take_of_length_le (by simp only [List.length_drop]; omega)
  refine ⟨gs, ps, ?_, h3, g3, h2, g2⟩
  simp only [CCAObj.setParams, h1, g1, hk, KParams.len, ht, hκ]
  rfl

/-- A vector of parameters of a `CCA` that divides nowhere by zero: the growth functions it makes
are sound, and so are the Gaussians of its kernel. -/
structure Spec.SoundVector (o : CCAObj) (v : List ℝ) : Prop where
  acts : ∀ o', o.setParams v = (o', none) → ∀ a ∈ o'.genesis ++ o'.persistence, Sound a
  kernel : ∀ cs, mixtureComponents 1
      (v.drop ((readActs o.genesis).length + (readActs o.persistence).length)) = .ok cs →
    ∀ c ∈ cs, eps9 + c.2.2 ≠ 0

/-- C110: the universe after `n` steps is a continuous function of the parameter vector given to
`set_params` and of the start. -/
theorem params_continuous {o : CCAObj} {ks v : List ℝ} (hk : o.kernelParams = .vec ks)
    (hv : v.length = (readActs o.genesis).length + (readActs o.persistence).length + ks.length)
    {o₁ : CCAObj} (h : o.setParams v = (o₁, none)) (hs : SoundVector o v) (p : Plain o.dynamics)
    (hc : o.kw.extN < 4) (t : ℝ) (n : Nat) (u : Univ ℝ N o.kw.extN H W)
    (hH : 1 ≤ H ∧ o.kernelRadius ≤ H) (hW : 1 ≤ W ∧ o.kernelRadius ≤ W) :
    ∃ f : List ℝ → Univ ℝ N o.kw.extN H W → Univ ℝ N o.kw.extN H W,
      (∀ v' u', v'.length = v.length → ∃ gs ps k K s,
        o.setParams v' = ({ o with genesis := gs, persistence := ps, kernelParams := k
                                   nbKernel := K, nbLayer := K }, none) ∧
        iterate CCA.forward n (({ o with genesis := gs, persistence := ps, kernelParams := k
                                         nbKernel := K, nbLayer := K } : CCAObj).dynamics.toCCA t)
          u' = .ok (f v' u', s)) ∧
      ∀ ε > 0, ∃ δ > 0, ∀ v' u', v'.length = v.length →
        (∀ k, |v'.getD k 0 - v.getD k 0| < δ) → (∀ a b i j, |u' a b i j - u a b i j| < δ) →
        CloseBy ε (f v' u') (f v u) := by
  obtain ⟨m, w, rfl⟩ : ∃ m, ∃ w : Fin m → ℝ, v = List.ofFn w := ⟨_, _, (List.ofFn_get v).symm⟩
  obtain ⟨K, hK⟩ : ∃ K, gaussianMixtureKernel o.kernelRadius ((List.ofFn w).drop
      ((readActs o.genesis).length + (readActs o.persistence).length)) = .ok K := by
    obtain ⟨gs, ps, k, h1, h2, _, _, _, h5⟩ := setParams_full hk hv.symm rfl
    obtain ⟨_, g1, _⟩ := writeActs_enough o.persistence
      ((List.ofFn w).drop (readActs o.genesis).length) (by rw [List.length_drop]; omega)
    rw [h2] at g1
    cases g1
    rw [List.drop_drop] at h5
    rw [h5] at h
    cases hK : gaussianMixtureKernel o.kernelRadius ((List.ofFn w).drop
      ((readActs o.genesis).length + (readActs o.persistence).length)) with
    | error e => rw [hK] at h; cases h
    | ok K => exact ⟨K, rfl⟩
  let ι := (Fin m → ℝ) × Univ ℝ N o.kw.extN H W
  let l : Filter ι := 𝓝 (w, u)
  have hl : ListTends l (fun x : ι => List.ofFn x.1) (List.ofFn w) :=
    ⟨fun i => by simp, fun k => ((ofFn_tends w).2 k).comp (continuous_fst.tendsto (w, u))⟩
  have hu : UnivTends l (fun x : ι => x.2) u := fun a b i j =>
    ((continuous_apply j).comp ((continuous_apply i).comp ((continuous_apply b).comp
      ((continuous_apply a).comp continuous_snd)))).tendsto (w, u)
  obtain ⟨κ₀, κ, rfl, hκ, hκt⟩ := kernel_tends
    (listTends_drop hl ((readActs o.genesis).length + (readActs o.persistence).length)) hK hs.kernel
  obtain ⟨g₀, q₀, e₀, a1, a2, a3, a4⟩ := setParams_revises hk hv hK
  have hrev : ∀ x : ι, _ := fun x => setParams_revises hk
    (v := List.ofFn x.1) (by rw [← hv]; simp) (hκ x)
  choose g q e b1 b2 b3 b4 using hrev
  have hsound := hs.acts _ e₀
  have hp : Plain ({ o with genesis := g₀, persistence := q₀
                            kernelParams := .vec ((List.ofFn w).drop ((readActs o.genesis).length +
                              (readActs o.persistence).length))
                            nbKernel := ⟨o.kernelRadius, κ₀⟩
                            nbLayer := ⟨o.kernelRadius, κ₀⟩ } : CCAObj).dynamics :=
    ⟨p.mode, p.idLayer, p.functional, p.ext_pos, p.dvd, (family_length a1).trans p.gen,
      (family_length a2).trans p.per⟩
  have hg : ActsTend l g g₀ := ⟨fun x => forall₂_trans (forall₂_symm a1) (b1 x), by
    simp only [b3, a3]
    exact listTends_take hl _⟩
  have hq : ActsTend l q q₀ := ⟨fun x => forall₂_trans (forall₂_symm a2) (b2 x), by
    simp only [b4, a4]
    exact listTends_take (listTends_drop hl _) _⟩
  obtain ⟨w₀, s₀, w', s', r1, r2, r3⟩ := (runs_tend (N := N) (H := H) (W := W) (l := l) (κ := κ)
    (h := fun _ => o.dt) hp hc hsound hg hq hκt tendsto_const_nhds t n hu hH hW).1
  have hat : w₀ = w' (w, u) := by
    have h1 := r2 (w, u)
    have h2 : g (w, u) = g₀ ∧ q (w, u) = q₀ ∧ κ (w, u) = κ₀ := by
      have h3 := e (w, u)
      rw [e₀] at h3
      have h4 := congrArg Prod.fst h3
      refine ⟨(congrArg CCAObj.genesis h4).symm, (congrArg CCAObj.persistence h4).symm, ?_⟩
      have h5 := hκ (w, u)
      rw [hK] at h5
      cases h5
      rfl
    rw [h2.1, h2.2.1, h2.2.2] at h1
    have h3 : iterate CCA.forward n _ u = _ := h1
    have h4 := r1.symm.trans h3
    exact congrArg Prod.fst (Except.ok.inj h4)
  obtain ⟨F, hF⟩ : ∃ F : List ℝ → Univ ℝ N o.kw.extN H W → Univ ℝ N o.kw.extN H W,
      ∀ (x : Fin m → ℝ) u', F (List.ofFn x) u' = w' (x, u') := by
    refine ⟨fun v' u' => (w' (fun k : Fin m => v'.getD k.val 0, u') :), fun x u' => ?_⟩
    have : (fun k : Fin m => (List.ofFn x).getD k.val 0) = x := by
      funext k
      rw [ofFn_getD, dif_pos k.isLt]
    exact congrArg (fun y => w' (y, u')) this
  have hall : ∀ v' : List ℝ, v'.length = (List.ofFn w).length → ∃ x : Fin m → ℝ, v' = List.ofFn x := by
    intro v' hlen
    rw [List.length_ofFn] at hlen
    subst hlen
    exact ⟨_, (List.ofFn_get v').symm⟩
  refine ⟨F, ?_, ?_⟩
  · intro v' u' hlen
    obtain ⟨x, rfl⟩ := hall v' hlen
    rw [hF]
    exact ⟨g (x, u'), q (x, u'), .vec ((List.ofFn x).drop ((readActs o.genesis).length +
      (readActs o.persistence).length)), ⟨o.kernelRadius, κ (x, u')⟩, s' (x, u'), e (x, u'),
      r2 (x, u')⟩
  · intro ε hε
    obtain ⟨δ, hδ, hball⟩ := Metric.eventually_nhds_iff.1 (tends_eventually (hat ▸ r3) hε)
    refine ⟨δ, hδ, fun v' u' hlen hclose huclose a b i j => ?_⟩
    obtain ⟨x, rfl⟩ := hall v' hlen
    rw [hF, hF]
    exact (hball (y := (x, u')) (pair_dist hδ hclose huclose) a b i j).le

/-- C110: the same for `Lenia`, whose `set_params` writes the genesis functions only. -/
theorem lenia_params_continuous {o : CCAObj} {v : List ℝ}
    (hv : v.length = (readActs o.genesis).length)
    (hs : ∀ o', o.leniaSetParams v = (o', none) → ∀ a ∈ o'.genesis ++ o'.persistence, Sound a)
    (p : Plain o.dynamics) (hc : o.kw.extN < 4) (t : ℝ) (n : Nat) (u : Univ ℝ N o.kw.extN H W)
    (hH : 1 ≤ H ∧ o.nbLayer.1 ≤ H) (hW : 1 ≤ W ∧ o.nbLayer.1 ≤ W) :
    ∃ f : List ℝ → Univ ℝ N o.kw.extN H W → Univ ℝ N o.kw.extN H W,
      (∀ v' u', v'.length = v.length → ∃ gs s,
        o.leniaSetParams v' = ({ o with genesis := gs }, none) ∧
        iterate CCA.leniaForward n (({ o with genesis := gs } : CCAObj).dynamics.toCCA t) u' =
          .ok (f v' u', s)) ∧
      ∀ ε > 0, ∃ δ > 0, ∀ v' u', v'.length = v.length →
        (∀ k, |v'.getD k 0 - v.getD k 0| < δ) → (∀ a b i j, |u' a b i j - u a b i j| < δ) →
        CloseBy ε (f v' u') (f v u) := by
  obtain ⟨m, w, rfl⟩ : ∃ m, ∃ w : Fin m → ℝ, v = List.ofFn w := ⟨_, _, (List.ofFn_get v).symm⟩
  let ι := (Fin m → ℝ) × Univ ℝ N o.kw.extN H W
  let l : Filter ι := 𝓝 (w, u)
  have hl : ListTends l (fun x : ι => List.ofFn x.1) (List.ofFn w) :=
    ⟨fun i => by simp, fun k => ((ofFn_tends w).2 k).comp (continuous_fst.tendsto (w, u))⟩
  have hu : UnivTends l (fun x : ι => x.2) u := fun a b i j =>
    ((continuous_apply j).comp ((continuous_apply i).comp ((continuous_apply b).comp
      ((continuous_apply a).comp continuous_snd)))).tendsto (w, u)
  have hset : ∀ x : Fin m → ℝ, ∃ gs, o.leniaSetParams (List.ofFn x) = ({ o with genesis := gs }, none) ∧
      List.Forall₂ SameFamily o.genesis gs ∧
      readActs gs = (List.ofFn x).take (readActs o.genesis).length := by
    intro x
    obtain ⟨gs, h1, h2, h3⟩ := writeActs_enough o.genesis (List.ofFn x) (by
      rw [← hv, List.length_ofFn, List.length_ofFn])
    refine ⟨gs, ?_, h3, h2⟩
    simp only [CCAObj.leniaSetParams, h1]
  choose g e b1 b3 using hset
  have hp : Plain ({ o with genesis := g w } : CCAObj).dynamics :=
    ⟨p.mode, p.idLayer, p.functional, p.ext_pos, p.dvd, (family_length (b1 w)).trans p.gen, p.per⟩
  have hg : ActsTend l (fun x : ι => g x.1) (g w) :=
    ⟨fun x => forall₂_trans (forall₂_symm (b1 w)) (b1 x.1), by
      simp only [b3]
      exact listTends_take hl _⟩
  have hq : ActsTend l (fun _ : ι => o.persistence) o.persistence :=
    ⟨fun x => forall₂_trans (forall₂_symm (forall₂_self _)) (forall₂_self _),
      fun _ => rfl, fun _ => tendsto_const_nhds⟩
  obtain ⟨w₀, s₀, w', s', r1, r2, r3⟩ := (runs_tend (N := N) (H := H) (W := W) (l := l)
    (κ := fun _ => o.nbLayer.2) (h := fun _ => o.dt) hp hc (hs _ (e w)) hg hq
    (fun _ _ => tendsto_const_nhds) tendsto_const_nhds t n hu hH hW).2
  have hat : w₀ = w' (w, u) := by
    have h3 : iterate CCA.leniaForward n _ u = _ := r2 (w, u)
    have h4 := r1.symm.trans h3
    exact congrArg Prod.fst (Except.ok.inj h4)
  obtain ⟨F, hF⟩ : ∃ F : List ℝ → Univ ℝ N o.kw.extN H W → Univ ℝ N o.kw.extN H W,
      ∀ (x : Fin m → ℝ) u', F (List.ofFn x) u' = w' (x, u') := by
    refine ⟨fun v' u' => (w' (fun k : Fin m => v'.getD k.val 0, u') :), fun x u' => ?_⟩
    have : (fun k : Fin m => (List.ofFn x).getD k.val 0) = x := by
      funext k
      rw [ofFn_getD, dif_pos k.isLt]
    exact congrArg (fun y => w' (y, u')) this
  have hall : ∀ v' : List ℝ, v'.length = (List.ofFn w).length → ∃ x : Fin m → ℝ, v' = List.ofFn x := by
    intro v' hlen
    rw [List.length_ofFn] at hlen
    subst hlen
    exact ⟨_, (List.ofFn_get v').symm⟩
  refine ⟨F, ?_, ?_⟩
  · intro v' u' hlen
    obtain ⟨x, rfl⟩ := hall v' hlen
    rw [hF]
    exact ⟨g x, s' (x, u'), e x, r2 (x, u')⟩
  · intro ε hε
    obtain ⟨δ, hδ, hball⟩ := Metric.eventually_nhds_iff.1 (tends_eventually (hat ▸ r3) hε)
    refine ⟨δ, hδ, fun v' u' hlen hclose huclose a b i j => ?_⟩
    obtain ⟨x, rfl⟩ := hall v' hlen
    rw [hF, hF]
    exact (hball (y := (x, u')) (pair_dist hδ hclose huclose) a b i j).le

/-! ## Gray-Scott and neural automata -/

/-- C110: the same for `RxnDfn`: rates, feed, kill, grid and step sizes, kernel and start. -/
theorem rxn_runs_tend {r : Nat} {ca : ι → RxnDfn ℝ} {ca₀ : RxnDfn ℝ}
    {κ : ι → Fin (2 * r + 1) → Fin (2 * r + 1) → ℝ} {κ₀ : Fin (2 * r + 1) → Fin (2 * r + 1) → ℝ}
    (hid : ∀ k, (ca k).idL = identityLayer 2 2 .circular)
    (hnb : ∀ k, (ca k).nbL = .ofKernel 2 2 .circular (2 * r + 1) (κ k))
    (hid₀ : ca₀.idL = identityLayer 2 2 .circular)
    (hnb₀ : ca₀.nbL = .ofKernel 2 2 .circular (2 * r + 1) κ₀)
    (hκ : ∀ a b, Tendsto (fun k => κ k a b) l (𝓝 (κ₀ a b)))
    (hU : Tendsto (fun k => (ca k).diffU) l (𝓝 ca₀.diffU))
    (hV : Tendsto (fun k => (ca k).diffV) l (𝓝 ca₀.diffV))
    (hf : Tendsto (fun k => (ca k).f) l (𝓝 ca₀.f)) (hk : Tendsto (fun k => (ca k).k) l (𝓝 ca₀.k))
    (hdx : Tendsto (fun k => (ca k).dx) l (𝓝 ca₀.dx)) (hdx₀ : ca₀.dx ≠ 0)
    (hdt : Tendsto (fun k => (ca k).dt) l (𝓝 ca₀.dt)) (hroom : Room r H W) (n : Nat)
    {v : ι → Univ ℝ N 2 H W} {u : Univ ℝ N 2 H W} (hv : UnivTends l v u) :
    ∃ (w : Univ ℝ N 2 H W) (s : RxnDfn ℝ) (w' : ι → Univ ℝ N 2 H W) (s' : ι → RxnDfn ℝ),
      iterate RxnDfn.forward n ca₀ u = .ok (w, s) ∧
      (∀ k, iterate RxnDfn.forward n (ca k) (v k) = .ok (w' k, s' k)) ∧ UnivTends l w' w := by
  refine ⟨_, _, fun k => _, fun k => _, rxn_euler hid₀ hnb₀ hroom n ca₀.t u,
    fun k => rxn_euler (hid k) (hnb k) hroom n (ca k).t (v k),
    eulerRun_tends hdt (fun v u hv a c i j => ?_) n hv⟩
  have hd2 : Tendsto (fun k => (ca k).dx ^ 2) l (𝓝 (ca₀.dx ^ 2)) := hdx.pow 2
  have hn2 : ca₀.dx ^ 2 ≠ 0 := pow_ne_zero 2 hdx₀
  unfold grayScott
  by_cases hc : c = 0
  · simp only [hc, if_true]
    exact ((hU.mul ((gathered_tends hκ (hv a 0) i j).div hd2 hn2)).sub
      ((hv a 0 i j).mul ((hv a 1 i j).pow 2))).add (hf.mul ((hv a 0 i j).const_sub 1))
  · simp only [hc, if_false]
    exact ((hV.mul ((gathered_tends hκ (hv a 1) i j).div hd2 hn2)).add
      ((hv a 0 i j).mul ((hv a 1 i j).pow 2))).sub ((hf.add hk).mul (hv a 1 i j))

/-- C110: the same for `NCA` in evaluation mode: weights, activations, kernel,
step size and start. -/
theorem nca_runs_tend {ext hid r : Nat} {ca : ι → NCA ℝ ext ext hid} {ca₀ : NCA ℝ ext ext hid}
    {κ : ι → Fin (2 * r + 1) → Fin (2 * r + 1) → ℝ} {κ₀ : Fin (2 * r + 1) → Fin (2 * r + 1) → ℝ}
    (hid' : ∀ k, (ca k).idL = identityLayer ext ext .circular)
    (hnb : ∀ k, (ca k).nbL = .ofKernel ext ext .circular (2 * r + 1) (κ k))
    (hid₀ : ca₀.idL = identityLayer ext ext .circular)
    (hnb₀ : ca₀.nbL = .ofKernel ext ext .circular (2 * r + 1) κ₀)
    (hκ : ∀ a b, Tendsto (fun k => κ k a b) l (𝓝 (κ₀ a b)))
    (hact₁ : FnTends l (fun k => (ca k).act₁) ca₀.act₁) (hact₂ : FnTends l (fun k => (ca k).act₂) ca₀.act₂)
    (h1 : ∀ a b, Tendsto (fun k => (ca k).w₁ a b) l (𝓝 (ca₀.w₁ a b)))
    (h2 : ∀ a b, Tendsto (fun k => (ca k).w₂ a b) l (𝓝 (ca₀.w₂ a b)))
    (h3 : ∀ a b, Tendsto (fun k => (ca k).w₃ a b) l (𝓝 (ca₀.w₃ a b)))
    (hdt : Tendsto (fun k => (ca k).dt) l (𝓝 ca₀.dt)) (hext : 0 < ext) (hfew : ext < 4)
    (hroom : Room r H W) (n : Nat)
    {v : ι → Univ ℝ N ext H W} {u : Univ ℝ N ext H W} (hv : UnivTends l v u) :
    ∃ (w : Univ ℝ N ext H W) (s : NCA ℝ ext ext hid) (w' : ι → Univ ℝ N ext H W)
      (s' : ι → NCA ℝ ext ext hid),
      iterate (fun (s : NCA ℝ ext ext hid) b => s.forward none b) n ca₀ u = .ok (w, s) ∧
      (∀ k, iterate (fun (s : NCA ℝ ext ext hid) b => s.forward none b) n (ca k) (v k) =
        .ok (w' k, s' k)) ∧ UnivTends l w' w := by
  refine ⟨_, _, fun k => _, fun k => _, nca_euler hid₀ hnb₀ hext hfew hroom n ca₀.t u,
    fun k => nca_euler (hid' k) (hnb k) hext hfew hroom n (ca k).t (v k),
    eulerRun_tends hdt (fun v u hv a e i j => ?_) n hv⟩
  simp only [network]
  refine (tanh_continuous.tendsto _).comp (tendsto_finsetSum _ fun q _ => (h3 e q).mul ?_)
  refine hact₂ _ _ (tendsto_finsetSum _ fun p _ => (h2 q p).mul ?_)
  refine hact₁ _ _ (Tendsto.add (tendsto_finsetSum _ fun c _ => (h1 _ _).mul (hv a c i j))
    (tendsto_finsetSum _ fun c _ => (h1 _ _).mul (gathered_tends hκ (hv a c) i j)))

/-! ## With four channels the alive mask jumps -/

/-- Four channels that grow at the rate `c`, wherever they are. -/
noncomputable def Witness.rising (c : ℝ) : CCADyn where
  ext := 4
  int := 4
  mode := .circular
  idLayer := ⟨1, identityKernel⟩
  nbLayer := ⟨1, fun a b => if a = 1 ∧ b = 2 then 1 else 0⟩
  genesis := List.replicate 4 (.polynomial [c] false)
  persistence := List.replicate 4 (.polynomial [c] false)
  seqWeights := none
  thr := 0.5
  dt := 1

theorem Witness.rising_plain (c : ℝ) : Plain (Witness.rising c) :=
  ⟨rfl, rfl, rfl, Nat.succ_pos 3, dvd_refl 4, by simp [Witness.rising], by simp [Witness.rising]⟩

theorem constant_growth {d : CCADyn} (p : Plain d) (hint : d.int ≠ 0) {c : ℝ}
    (h : ∀ a ∈ d.genesis ++ d.persistence, ∀ y, a.eval y = c) (x : Fin d.ext → Grid ℝ H W)
    (i : Fin H) (j : Fin W) : growth p x i j = c / d.ext := by
  have hg : ∀ (o : Fin d.int) y, (d.genesis.get (Fin.cast p.gen.symm o)).eval y = c := fun o y =>
    h _ (List.mem_append_left _ (List.get_mem _ _)) y
  have hp : ∀ (o : Fin d.int) y, (d.persistence.get (Fin.cast p.per.symm o)).eval y = c := fun o y =>
    h _ (List.mem_append_right _ (List.get_mem _ _)) y
  unfold growth
  simp only [hg, hp]
  have : ∀ o : Fin d.int, (1 - x (source p.ext_pos p.dvd o) i j) * c +
      x (source p.ext_pos p.dvd o) i j * c = c := fun o => by ring
  simp only [this, Finset.sum_const, Finset.card_univ, Fintype.card_fin, nsmul_eq_mul]
  have h1 : (d.int : ℝ) ≠ 0 := Nat.cast_ne_zero.2 hint
  have h2 : (d.ext : ℝ) ≠ 0 := Nat.cast_ne_zero.2 p.ext_pos.ne'
  field_simp

theorem rising_step (c t : ℝ) (w : Univ ℝ 1 4 3 3) :
    ∃ w' : Univ ℝ 1 4 3 3, CCA.forward (ext := 4) (int := 4) ((Witness.rising c).toCCA t) w =
        .ok (w', (Witness.rising c).toCCA (t + 1)) ∧
      ∀ n e i j, w' n e i j = clip (alive 0.5 w n e i j + c / 4) := by
  obtain ⟨w', h1, h2⟩ := cca_rule (Witness.rising c) t rfl rfl rfl (Witness.rising_plain c).ext_pos
    (Witness.rising_plain c).dvd (Witness.rising_plain c).gen (Witness.rising_plain c).per w
    (⟨by decide, Nat.one_le_ofNat⟩ : 1 ≤ 3 ∧ 1 ≤ 3) (⟨by decide, Nat.one_le_ofNat⟩ : 1 ≤ 3 ∧ 1 ≤ 3)
  refine ⟨w', h1, fun n e i j => ?_⟩
  have h3 := h2 n e i j
  have h4 := constant_growth (Witness.rising_plain c) (Nat.succ_ne_zero 3) (c := c) (by
    intro a ha y
    have : a = .polynomial [c] false := by
      rcases List.mem_append.1 ha with h | h <;> exact List.eq_of_mem_replicate h
    rw [this]
    simp [Act.eval, polynomialFn]) (alive 0.5 w n) i j
  unfold growth at h4
  simp only at h3
  rw [h3]
  refine congrArg clip ?_
  refine (congrArg (fun z => alive 0.5 w n e i j + (Witness.rising c).dt * z) h4).trans ?_
  show _ + 1 * (c / ((4 : Nat) : ℝ)) = _
  norm_num

/-- C110, exception: with four channels a parameter that changes by as little as you like can set
the universes more than 0.8 apart after two steps. -/
theorem params_jump_refuted (ε : ℝ) (hε : 0 < ε) (hε1 : ε ≤ 0.1) :
    ∃ u : Univ ℝ 1 4 3 3, Within01 u ∧ ∃ (v v' : Univ ℝ 1 4 3 3) (s s' : CCA ℝ 4 4),
      iterate CCA.forward 2 ((Witness.rising (-0.4)).toCCA 0) u = .ok (v, s) ∧
      iterate CCA.forward 2 ((Witness.rising (-0.4 + ε)).toCCA 0) u = .ok (v', s') ∧
      0.8 < |v' 0 0 1 1 - v 0 0 1 1| := by
  set u : Univ ℝ 1 4 3 3 := fun _ e _ _ => if e = 3 then 0.6 else 1 with hu
  have two : ∀ c : ℝ, -0.4 ≤ c → c ≤ 0 → ∃ (v w : Univ ℝ 1 4 3 3) (s : CCA ℝ 4 4),
      iterate CCA.forward 2 ((Witness.rising c).toCCA 0) u = .ok (w, s) ∧
      v 0 3 1 1 = 0.6 + c / 4 ∧ v 0 0 1 1 = 1 + c / 4 ∧
      w 0 0 1 1 = clip (alive 0.5 v 0 0 1 1 + c / 4) := by
    intro c hc hc0
    obtain ⟨v, h1, h2⟩ := rising_step c 0 u
    obtain ⟨w, h3, h4⟩ := rising_step c (0 + 1) v
    have hal : ∀ e, alive 0.5 u 0 e 1 1 = u 0 e 1 1 := by
      intro e
      simp only [alive]
      rw [dif_pos (by decide), if_pos]
      show (0.5 : ℝ) < if (3 : Fin 4) = 3 then 0.6 else 1
      rw [if_pos rfl]
      norm_num
    refine ⟨v, w, (Witness.rising c).toCCA (0 + 1 + 1), ?_, ?_, ?_, h4 0 0 1 1⟩
    · have h5 : iterate (CCA.forward (N := 1) (H := 3) (W := 3) (ext := 4) (int := 4)) 2
          ((Witness.rising c).toCCA 0) u = (CCA.forward (ext := 4) (int := 4)
            ((Witness.rising c).toCCA 0) u >>= fun r => CCA.forward r.2 r.1 >>= fun r =>
              .ok (r.1, r.2)) := rfl
      rw [h1] at h5
      refine h5.trans ?_
      show (CCA.forward (ext := 4) (int := 4) ((Witness.rising c).toCCA (0 + 1)) v >>= _) = _
      rw [h3]
      rfl
    · rw [h2, hal]
      simp only [hu]
      rw [if_pos trivial]
      exact clip_eq (by linarith) (by linarith)
    · rw [h2, hal]
      simp only [hu]
      rw [if_neg (by decide)]
      exact clip_eq (by linarith) (by linarith)
  obtain ⟨v, w, s, h1, h2, h3, h4⟩ := two (-0.4) (le_refl _) (by norm_num)
  obtain ⟨v', w', s', h1', h2', h3', h4'⟩ := two (-0.4 + ε) (by linarith) (by linarith)
  refine ⟨u, fun n e i j => ?_, w, w', s, s', h1, h1', ?_⟩
  · simp only [hu]
    split <;> norm_num
  · have e1 : w 0 0 1 1 = 0 := by
      rw [h4]
      simp only [alive]
      rw [dif_pos (by decide), if_neg]
      · norm_num [clip]
      · rw [show (⟨3, by decide⟩ : Fin 4) = 3 from rfl, h2]
        norm_num
    have e2 : w' 0 0 1 1 = 1 + (-0.4 + ε) / 4 + (-0.4 + ε) / 4 := by
      rw [h4']
      simp only [alive]
      rw [dif_pos (by decide), if_pos]
      · rw [h3']
        exact clip_eq (by linarith) (by linarith)
      · rw [show (⟨3, by decide⟩ : Fin 4) = 3 from rfl, h2']
        linarith
    rw [e1, e2, sub_zero, abs_of_nonneg (by linarith)]
    linarith

/-! ## Examples -/

/-- A parameter vector that meets the hypotheses of `params_continuous`. -/
example (κ : AnyKernel) (hκ : gaussianMixtureKernel 1 [1 / 2, 3 / 20] = .ok κ) (t : ℝ) (n : Nat)
    (u : Univ ℝ 2 1 9 9) : ∃ f : List ℝ → Univ ℝ 2 1 9 9 → Univ ℝ 2 1 9 9, ∀ ε > 0, ∃ δ > 0,
      ∀ v' u', v'.length = 4 → (∀ k, |v'.getD k 0 - [0.3, -0.2, 1 / 2, 3 / 20].getD k 0| < δ) →
        (∀ a b i j, |u' a b i j - u a b i j| < δ) →
        CloseBy ε (f v' u') (f [0.3, -0.2, 1 / 2, 3 / 20] u) := by
  have hset := constObj_setParams hκ 0 0 0.3 (-0.2) 0.1 t
  have hr := mixture_kernel_radius hκ
  obtain ⟨f, _, h⟩ := params_continuous (N := 2) (H := 9) (W := 9) (o := Witness.constObj κ 0 0 0.1 t)
    (ks := [1 / 2, 3 / 20]) (v := [0.3, -0.2, 1 / 2, 3 / 20]) rfl (by
      simp [Witness.constObj, readActs, Act.tensors, readTensors]) hset
    ⟨fun o' ho a ha => by
      rw [hset] at ho
      cases ho
      have : a = .polynomial [0.3] false ∨ a = .polynomial [-0.2] false := by
        simpa [Witness.constObj] using ha
      rcases this with rfl | rfl <;> trivial,
     fun cs hcs c hc => by
      have h2 : mixtureComponents (1 : ℝ) [1 / 2, 3 / 20] = .ok cs := by
        simpa [Witness.constObj, readActs, Act.tensors, readTensors] using hcs
      have h3 : mixtureComponents (1 : ℝ) [1 / 2, 3 / 20] = .ok [(1, 1 / 2, 3 / 20)] := rfl
      rw [h3] at h2
      cases h2
      rw [List.mem_singleton.1 hc]
      unfold eps9
      norm_num⟩
    (constObj_plain _ _ _ _ _) (by decide : 1 < 4) t n u (by decide : 1 ≤ 9 ∧ 1 ≤ 9)
    (by decide : 1 ≤ 9 ∧ 1 ≤ 9)
  exact ⟨f, h⟩

/-- Rules that tend to the orbium, as `runs_tend` asks. -/
example : ActsTend atTop (fun n : ℕ => [.gaussian (0.15 + 1 / (n + 1)) (0.015 - 1 / (n + 1)) true])
      [.gaussian 0.15 0.015 true] ∧ ∀ a ∈ [Act.gaussian 0.15 0.015 true], Sound a := by
  have h0 := tendsto_one_div_add_atTop_nhds_zero_nat (𝕜 := ℝ)
  refine ⟨⟨fun n => .cons (.gaussian ..) .nil, fun n => rfl, fun k => ?_⟩, fun a ha => ?_⟩
  · match k with
    | 0 => simpa [readActs, Act.tensors, readTensors] using h0.const_add 0.15
    | 1 => simpa [readActs, Act.tensors, readTensors] using h0.const_sub 0.015
    | k + 2 => simp [readActs, Act.tensors, readTensors]
  · rw [List.mem_singleton.1 ha]
    show eps9 + 0.015 ≠ 0
    unfold eps9
    norm_num

/-- The default Gray-Scott automaton with feed rates that tend to its own. -/
example (n : Nat) (u : Univ ℝ 1 2 8 8) : ∃ (w : Univ ℝ 1 2 8 8) (s : RxnDfn ℝ)
    (w' : ℕ → Univ ℝ 1 2 8 8) (s' : ℕ → RxnDfn ℝ),
    iterate RxnDfn.forward n RxnDfn.default u = .ok (w, s) ∧
      (∀ k : ℕ, iterate RxnDfn.forward n { RxnDfn.default with f := 0.0620 + 1 / (k + 1) } u =
        .ok (w' k, s' k)) ∧ UnivTends atTop w' w :=
  rxn_runs_tend (r := 1) (l := atTop) (N := 1) (H := 8) (W := 8) (ca₀ := RxnDfn.default)
    (ca := fun k : ℕ => { RxnDfn.default with f := 0.0620 + 1 / (k + 1) }) (κ := fun _ => logKernel 0.5 (radialGrid 1))
    (κ₀ := logKernel 0.5 (radialGrid 1)) (fun _ => rfl) (fun _ => rfl) rfl rfl
    (fun _ _ => tendsto_const_nhds) tendsto_const_nhds tendsto_const_nhds
    (by simpa [RxnDfn.default] using
      (tendsto_one_div_add_atTop_nhds_zero_nat (𝕜 := ℝ)).const_add 0.0620)
    tendsto_const_nhds tendsto_const_nhds (by norm_num [RxnDfn.default]) tendsto_const_nhds
    (by unfold Room; decide) n (fun _ _ _ _ => tendsto_const_nhds)

/-- A neural automaton with output weights that tend to its own. -/
example (n : Nat) (u : Univ ℝ 1 2 8 8) (w₁ : Fin 7 → Fin 4 → ℝ) (w₂ : Fin 7 → Fin 7 → ℝ)
    (w₃ : Fin 2 → Fin 7 → ℝ) : ∃ (w : Univ ℝ 1 2 8 8) (w' : ℕ → Univ ℝ 1 2 8 8)
      (s' : ℕ → NCA ℝ 2 2 7),
      (∀ k : ℕ, iterate (fun (s : NCA ℝ 2 2 7) b => s.forward none b) n
        (NCA.mk (identityLayer 2 2 .circular) (.ofKernel 2 2 .circular 3 laplacian9) w₁ Real.tanh w₂ Real.tanh
          (fun a b => w₃ a b + 1 / (k + 1)) 0.1 0.5 0) u = .ok (w' k, s' k)) ∧
      UnivTends atTop w' w := by
  obtain ⟨w, _, w', s', _, h⟩ := nca_runs_tend (r := 1) (l := atTop) (N := 1) (H := 8) (W := 8)
    (ca₀ := NCA.mk (identityLayer 2 2 .circular) (.ofKernel 2 2 .circular 3 laplacian9) w₁ Real.tanh
      w₂ Real.tanh w₃ 0.1 0.5 0)
    (ca := fun k : ℕ => NCA.mk (identityLayer 2 2 .circular) (.ofKernel 2 2 .circular 3 laplacian9) w₁
      Real.tanh w₂ Real.tanh (fun a b => w₃ a b + 1 / (k + 1)) 0.1 0.5 0)
    (κ := fun _ => laplacian9) (κ₀ := laplacian9) (fun _ => rfl) (fun _ => rfl) rfl rfl
    (fun _ _ => tendsto_const_nhds) (fnTends_const tanh_continuous) (fnTends_const tanh_continuous) (fun _ _ => tendsto_const_nhds)
    (fun _ _ => tendsto_const_nhds)
    (fun a b => by simpa using
      (tendsto_one_div_add_atTop_nhds_zero_nat (𝕜 := ℝ)).const_add (w₃ a b))
    tendsto_const_nhds (by decide) (by decide) (by unfold Room; decide) n
    (v := fun _ => u) (u := u) (fun _ _ _ _ => tendsto_const_nhds)
  exact ⟨w, w', s', h⟩

end Yuca
