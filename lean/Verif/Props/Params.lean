import Verif.Model.Object
import Verif.Lemmas.Forward
import Verif.Props.Kernels
import Mathlib.Data.List.Forall2

/-!
# Parameter vectors (C28, C29, C30)
-/

namespace Yuca

/-! ## The generic loop -/

section
variable {K : Type}

/-- Number of entries in a list of tensors. -/
def Spec.size (ts : List (List K)) : Nat := (ts.map List.length).sum

theorem readTensors_length (ts : List (List K)) : (readTensors ts).length = Spec.size ts := by
  simp [readTensors, Spec.size, List.length_flatten]

theorem writeTensors_enough (ts : List (List K)) (v : List K) (h : Spec.size ts ≤ v.length) :
    ∃ ts', writeTensors ts v = (ts', .ok (v.drop (Spec.size ts))) ∧
      ts'.map List.length = ts.map List.length ∧ readTensors ts' = v.take (Spec.size ts) := by
  induction ts generalizing v with
  | nil => exact ⟨[], by simp [writeTensors, Spec.size], rfl, by simp [readTensors, Spec.size]⟩
  | cons t ts ih =>
    have hs : Spec.size (t :: ts) = t.length + Spec.size ts := by simp [Spec.size]
    rw [hs] at h ⊢
    obtain ⟨ts', h1, h2, h3⟩ := ih (v.drop t.length) (by rw [List.length_drop]; omega)
    have hl : (v.take t.length).length = t.length := by rw [List.length_take]; omega
    refine ⟨v.take t.length :: ts', ?_, ?_, ?_⟩
    · simp only [writeTensors, if_pos hl, h1, List.drop_drop]
    · simp [h2]; omega
    · have h3' : ts'.flatten = (v.drop t.length).take (Spec.size ts) := h3
      rw [readTensors, List.flatten_cons, h3', List.take_add]

theorem writeTensors_short (ts : List (List K)) (v : List K) (h : v.length < Spec.size ts) :
    ∃ k ts', k < ts.length ∧ Spec.size (ts.take k) ≤ v.length ∧
      v.length < Spec.size (ts.take (k + 1)) ∧ writeTensors ts v = (ts', .error .value) ∧
      ts'.map List.length = ts.map List.length ∧
      readTensors ts' =
        v.take (Spec.size (ts.take k)) ++ (readTensors ts).drop (Spec.size (ts.take k)) := by
  induction ts generalizing v with
  | nil => simp [Spec.size] at h
  | cons t ts ih =>
    have hs : ∀ l : List (List K), Spec.size (t :: l) = t.length + Spec.size l := by
      intro l; simp [Spec.size]
    by_cases hl : t.length ≤ v.length
    · have hl' : (v.take t.length).length = t.length := by rw [List.length_take]; omega
      rw [hs] at h
      obtain ⟨k, ts', h1, h2, h3, h4, h5, h6⟩ :=
        ih (v.drop t.length) (by rw [List.length_drop]; omega)
      rw [List.length_drop] at h2 h3
      refine ⟨k + 1, v.take t.length :: ts', by simp [h1], ?_, ?_, ?_, ?_, ?_⟩
      · rw [List.take_succ_cons, hs]; omega
      · rw [List.take_succ_cons, hs]; omega
      · simp only [writeTensors, if_pos hl', h4]
      · simp [h5]; omega
      · have h6' : ts'.flatten = _ := h6
        rw [List.take_succ_cons, hs, readTensors, List.flatten_cons, h6', List.take_add,
          List.append_assoc]
        congr 2
        have e : (readTensors (t :: ts)) = t ++ readTensors ts := rfl
        rw [e, ← List.drop_drop, List.drop_left]
    · have hl' : ¬ (v.take t.length).length = t.length := by rw [List.length_take]; omega
      refine ⟨0, t :: ts, by simp, by simp [Spec.size], ?_, ?_, rfl, by simp [Spec.size]⟩
      · simp [Spec.size]; omega
      · simp only [writeTensors, if_neg hl']

/-! ## Activations -/

theorem setComponents_tensors (cs : List (K × K × K)) (ts : List (List K))
    (h : ts.map List.length = (cs.flatMap fun c => [[c.2.1], [c.2.2]]).map List.length) :
    ((setComponents cs ts).flatMap fun c => [[c.2.1], [c.2.2]]) = ts ∧
      (setComponents cs ts).map (·.1) = cs.map (·.1) := by
  induction cs generalizing ts with
  | nil => cases ts <;> simp_all [setComponents]
  | cons c cs ih =>
    match ts, h with
    | [m] :: [s] :: ts, h =>
      have := ih ts (by simpa using h)
      simp only [setComponents, List.flatMap_cons, this.1, List.map_cons, this.2]
      exact ⟨rfl, trivial⟩
    | [], h => simp at h
    | [_], h => simp at h
    | [] :: _ :: _, h => simp at h
    | [_] :: [] :: _, h => simp at h
    | (_ :: _ :: _) :: _ :: _, h => simp at h
    | [_] :: (_ :: _ :: _) :: _, h => simp at h

theorem list_length_one {l : List K} (h : l.length = 1) : ∃ a, l = [a] :=
  List.length_eq_one_iff.1 h

theorem list_length_two {l : List K} (h : l.length = 2) : ∃ a b, l = [a, b] :=
  List.length_eq_two.1 h

theorem shape_one {ts : List (List K)} {n : Nat} (h : ts.map List.length = [n]) :
    ∃ l, ts = [l] ∧ l.length = n := by
  match ts, h with
  | [l], h => exact ⟨l, rfl, by simpa using h⟩
  | [], h => simp at h
  | _ :: _ :: _, h => simp at h

theorem shape_two {ts : List (List K)} {n m : Nat} (h : ts.map List.length = [n, m]) :
    ∃ l k, ts = [l, k] ∧ l.length = n ∧ k.length = m := by
  match ts, h with
  | [l, k], h => simp at h; exact ⟨l, k, rfl, h.1, h.2⟩
  | [], h => simp at h
  | [_], h => simp at h
  | _ :: _ :: _ :: _, h => simp at h

theorem tensors_setTensors (a : Act K) (ts : List (List K))
    (h : ts.map List.length = a.tensors.map List.length) : (a.setTensors ts).tensors = ts := by
  cases a with
  | gaussian mu s b =>
    obtain ⟨l, k, rfl, h1, h2⟩ := shape_two (by simpa [Act.tensors] using h)
    obtain ⟨x, rfl⟩ := list_length_one h1
    obtain ⟨y, rfl⟩ := list_length_one h2
    rfl
  | doGaussian mu s dx b =>
    obtain ⟨l, k, rfl, h1, h2⟩ := shape_two (by simpa [Act.tensors] using h)
    obtain ⟨x, rfl⟩ := list_length_one h1
    obtain ⟨y, rfl⟩ := list_length_one h2
    rfl
  | doubleGaussian m₀ m₁ s₀ s₁ b =>
    obtain ⟨l, k, rfl, h1, h2⟩ := shape_two (by simpa [Act.tensors] using h)
    obtain ⟨x, x', rfl⟩ := list_length_two h1
    obtain ⟨y, y', rfl⟩ := list_length_two h2
    rfl
  | mixture cs b => exact (setComponents_tensors cs ts h).1
  | polynomial cs b =>
    obtain ⟨l, rfl, h1⟩ := shape_one (by simpa [Act.tensors] using h)
    rfl
  | smoothIntervals is al b => simp [Act.tensors] at h; subst h; rfl
  | identity => simp [Act.tensors] at h; subst h; rfl
  | relu => simp [Act.tensors] at h; subst h; rfl
  | tanh => simp [Act.tensors] at h; subst h; rfl

/-- Two activations agree in everything that is not a parameter: the family, the mode, the
amplitudes of a mixture, the step of a difference of Gaussians, the number of coefficients. -/
inductive Spec.SameFamily : Act K → Act K → Prop
  | gaussian (mu s mu' s' b) : SameFamily (.gaussian mu s b) (.gaussian mu' s' b)
  | doGaussian (mu s mu' s' dx b) : SameFamily (.doGaussian mu s dx b) (.doGaussian mu' s' dx b)
  | doubleGaussian (a b c d a' b' c' d' m) :
      SameFamily (.doubleGaussian a b c d m) (.doubleGaussian a' b' c' d' m)
  | mixture (cs cs' b) (h : cs.map (·.1) = cs'.map (·.1)) :
      SameFamily (.mixture cs b) (.mixture cs' b)
  | polynomial (cs cs' b) (h : cs.length = cs'.length) :
      SameFamily (.polynomial cs b) (.polynomial cs' b)
  | same (a) : SameFamily a a

theorem setTensors_family (a : Act K) (ts : List (List K))
    (h : ts.map List.length = a.tensors.map List.length) :
    Spec.SameFamily a (a.setTensors ts) := by
  cases a with
  | gaussian mu s b =>
    obtain ⟨l, k, rfl, h1, h2⟩ := shape_two (by simpa [Act.tensors] using h)
    obtain ⟨x, rfl⟩ := list_length_one h1
    obtain ⟨y, rfl⟩ := list_length_one h2
    exact .gaussian ..
  | doGaussian mu s dx b =>
    obtain ⟨l, k, rfl, h1, h2⟩ := shape_two (by simpa [Act.tensors] using h)
    obtain ⟨x, rfl⟩ := list_length_one h1
    obtain ⟨y, rfl⟩ := list_length_one h2
    exact .doGaussian ..
  | doubleGaussian m₀ m₁ s₀ s₁ b =>
    obtain ⟨l, k, rfl, h1, h2⟩ := shape_two (by simpa [Act.tensors] using h)
    obtain ⟨x, x', rfl⟩ := list_length_two h1
    obtain ⟨y, y', rfl⟩ := list_length_two h2
    exact .doubleGaussian ..
  | mixture cs b => exact .mixture _ _ _ (setComponents_tensors cs ts h).2.symm
  | polynomial cs b =>
    obtain ⟨l, rfl, h1⟩ := shape_one (by simpa [Act.tensors] using h)
    exact .polynomial _ _ _ h1.symm
  | smoothIntervals is al b => exact .same _
  | identity => exact .same _
  | relu => exact .same _
  | tanh => exact .same _

theorem setTensors_self (a : Act K) : a.setTensors a.tensors = a := by
  cases a with
  | mixture cs b =>
    have : ∀ cs : List (K × K × K),
        setComponents cs (cs.flatMap fun c => [[c.2.1], [c.2.2]]) = cs := by
      intro cs
      induction cs with
      | nil => rfl
      | cons c cs ih => simp only [List.flatMap_cons, List.cons_append, List.nil_append, setComponents, ih]
    exact congrArg (Act.mixture · b) (this cs)
  | _ => rfl

/-- All parameter tensors of a list of activations. -/
def Spec.layout (as : List (Act K)) : List (List K) := as.flatMap Act.tensors

theorem layout_cons (a : Act K) (as : List (Act K)) :
    Spec.layout (a :: as) = a.tensors ++ Spec.layout as := rfl

theorem size_append (s t : List (List K)) : Spec.size (s ++ t) = Spec.size s + Spec.size t := by
  simp [Spec.size]

theorem readActs_cons (a : Act K) (as : List (Act K)) :
    readActs (a :: as) = readTensors a.tensors ++ readActs as := rfl

theorem readActs_eq (as : List (Act K)) : readActs as = (Spec.layout as).flatten := by
  induction as with
  | nil => rfl
  | cons a as ih => rw [readActs_cons, layout_cons, List.flatten_append, ih]; rfl

theorem readActs_length (as : List (Act K)) :
    (readActs as).length = Spec.size (Spec.layout as) := by
  rw [readActs_eq, ← readTensors_length]; rfl

theorem writeActs_enough (as : List (Act K)) (v : List K) (h : (readActs as).length ≤ v.length) :
    ∃ as', writeActs as v = (as', .ok (v.drop (readActs as).length)) ∧
      readActs as' = v.take (readActs as).length ∧ List.Forall₂ Spec.SameFamily as as' := by
  induction as generalizing v with
  | nil => exact ⟨[], by simp [writeActs, readActs], by simp [readActs], .nil⟩
  | cons a as ih =>
    rw [readActs_cons, List.length_append, readTensors_length] at h ⊢
    obtain ⟨ts, h1, h2, h3⟩ := writeTensors_enough a.tensors v (by omega)
    obtain ⟨as', h4, h5, h6⟩ := ih (v.drop (Spec.size a.tensors)) (by rw [List.length_drop]; omega)
    refine ⟨a.setTensors ts :: as', ?_, ?_, .cons (setTensors_family a ts h2) h6⟩
    · simp only [writeActs, h1, h4, List.drop_drop]
    · rw [readActs_cons, tensors_setTensors a ts h2, h3, h5, List.take_add]

theorem writeActs_short (as : List (Act K)) (v : List K) (h : v.length < (readActs as).length) :
    ∃ k as', k < (Spec.layout as).length ∧ Spec.size ((Spec.layout as).take k) ≤ v.length ∧
      v.length < Spec.size ((Spec.layout as).take (k + 1)) ∧
      writeActs as v = (as', .error .value) ∧ List.Forall₂ Spec.SameFamily as as' ∧
      readActs as' = v.take (Spec.size ((Spec.layout as).take k)) ++
        (readActs as).drop (Spec.size ((Spec.layout as).take k)) := by
  induction as generalizing v with
  | nil => simp [readActs] at h
  | cons a as ih =>
    rw [readActs_cons, List.length_append, readTensors_length] at h
    by_cases hv : v.length < Spec.size a.tensors
    · obtain ⟨k, ts, h1, h2, h3, h4, h5, h6⟩ := writeTensors_short a.tensors v hv
      have e1 : (Spec.layout (a :: as)).take k = a.tensors.take k := by
        rw [layout_cons, List.take_append_of_le_length (by omega)]
      have e2 : (Spec.layout (a :: as)).take (k + 1) = a.tensors.take (k + 1) := by
        rw [layout_cons, List.take_append_of_le_length (by omega)]
      refine ⟨k, a.setTensors ts :: as, by rw [layout_cons, List.length_append]; omega, ?_, ?_, ?_,
        .cons (setTensors_family a ts h5) ?_, ?_⟩
      · rw [e1]; exact h2
      · rw [e2]; exact h3
      · simp only [writeActs, h4]
      · exact List.forall₂_same.2 fun x _ => .same x
      · rw [e1, readActs_cons, readActs_cons, tensors_setTensors a ts h5, h6, List.append_assoc,
          List.drop_append_of_le_length]
        rw [readTensors_length]
        omega
    · obtain ⟨ts, h1, h2, h3⟩ := writeTensors_enough a.tensors v (by omega)
      obtain ⟨k, as', g1, g2, g3, g4, g5, g6⟩ :=
        ih (v.drop (Spec.size a.tensors)) (by rw [List.length_drop]; omega)
      rw [List.length_drop] at g2 g3
      have e : ∀ k, Spec.size ((Spec.layout (a :: as)).take (a.tensors.length + k)) =
          Spec.size a.tensors + Spec.size ((Spec.layout as).take k) := by
        intro k
        rw [layout_cons, List.take_append, List.take_of_length_le (by omega), size_append]
        simp
      refine ⟨a.tensors.length + k, a.setTensors ts :: as',
        by rw [layout_cons, List.length_append]; omega, ?_, ?_, ?_,
        .cons (setTensors_family a ts h2) g5, ?_⟩
      · rw [e]; omega
      · rw [Nat.add_assoc, e]; omega
      · simp only [writeActs, h1, g4]
      · rw [e, readActs_cons, readActs_cons, tensors_setTensors a ts h2, h3, g6, List.take_add,
          List.append_assoc, ← List.drop_drop,
          List.drop_left' (readTensors_length a.tensors)]

theorem writeActs_self (as : List (Act K)) (rest : List K) :
    writeActs as (readActs as ++ rest) = (as, .ok rest) := by
  have hw : ∀ (ts : List (List K)) (r : List K), writeTensors ts (readTensors ts ++ r) = (ts, .ok r) := by
    intro ts r
    induction ts with
    | nil => rfl
    | cons t ts ih =>
      have ih' : writeTensors ts (ts.flatten ++ r) = (ts, .ok r) := ih
      simp [writeTensors, readTensors, ih']
  induction as with
  | nil => rfl
  | cons a as ih =>
    rw [readActs_cons, List.append_assoc, writeActs, hw]
    simp only [ih, setTensors_self]

end

/-! ## Mixture kernels -/

/-- A vector `get_gaussian_mixture_kernel` accepts: not empty, and read as triples or pairs. -/
def Spec.MixtureLength (n : Nat) : Prop := n ≠ 0 ∧ (n % 3 = 0 ∨ n % 2 = 0)

theorem triples_ok {K : Type} (ps : List K) (h : ps.length % 3 = 0) :
    ∃ cs, mixtureComponents.triples ps = .ok cs ∧ cs.length * 3 = ps.length := by
  match ps, h with
  | [], _ => exact ⟨[], rfl, rfl⟩
  | a :: m :: s :: rest, h =>
    obtain ⟨cs, h1, h2⟩ := triples_ok rest (by simp at h; omega)
    exact ⟨(a, m, s) :: cs, by simp [mixtureComponents.triples, h1, bind, Except.bind, pure, Except.pure],
      by simp; omega⟩
  | [_], h => simp at h
  | [_, _], h => simp at h

theorem pairs_ok {K : Type} (one : K) (ps : List K) (h : ps.length % 2 = 0) :
    ∃ cs, mixtureComponents.pairs one ps = .ok cs ∧ cs.length * 2 = ps.length := by
  match ps, h with
  | [], _ => exact ⟨[], rfl, rfl⟩
  | m :: s :: rest, h =>
    obtain ⟨cs, h1, h2⟩ := pairs_ok one rest (by simp at h; omega)
    exact ⟨(one, m, s) :: cs, by simp [mixtureComponents.pairs, h1, bind, Except.bind, pure, Except.pure],
      by simp; omega⟩
  | [_], h => simp at h

theorem pairs_err {K : Type} (one : K) (ps : List K) (h : ps.length % 2 = 1) :
    mixtureComponents.pairs one ps = .error .index := by
  match ps, h with
  | [_], h => rfl
  | [], h => simp at h
  | m :: s :: rest, h =>
    have := pairs_err one rest (by simp at h; omega)
    simp [mixtureComponents.pairs, this, bind, Except.bind]

/-- Whether a mixture kernel can be built depends only on the length of the vector. -/
theorem mixture_kernel_iff (r : Nat) (ps : List ℝ) :
    (∃ κ, gaussianMixtureKernel r ps = .ok κ) ↔ Spec.MixtureLength ps.length ∧ r ≠ 0 := by
  have key : gaussianMixtureKernel r ps =
      match kernelFn "GaussianMixture" { parameters := some ps } with
      | .error e => .error e
      | .ok f =>
        if r = 0 then .error .zeroDiv
        else .ok ⟨r, normaliseKernel fun a b => f (radialGrid r a b)⟩ := by
    unfold gaussianMixtureKernel getKernel
    simp
    rfl
  have key2 : kernelFn "GaussianMixture" { parameters := some ps } =
      (mixtureComponents 1 ps >>= fun cs =>
        if cs = [] then .error .index else .ok (mixtureFn cs false)) := by
    unfold kernelFn
    simp [pure, Except.pure]
  rw [key, key2]
  unfold Spec.MixtureLength mixtureComponents
  by_cases h3 : ps.length % 3 = 0
  · obtain ⟨cs, h1, h2⟩ := triples_ok ps h3
    rw [if_pos h3, h1]
    by_cases hcs : cs = []
    · have : ps.length = 0 := by rw [← h2, hcs]; rfl
      simp [hcs, bind, Except.bind, this]
    · have : ps.length ≠ 0 := by
        intro h; rw [← h2] at h; apply hcs; exact List.eq_nil_of_length_eq_zero (by omega)
      by_cases hr : r = 0 <;> simp_all [bind, Except.bind]
  · rw [if_neg h3]
    by_cases h2 : ps.length % 2 = 0
    · obtain ⟨cs, h1, h2'⟩ := pairs_ok 1 ps h2
      rw [h1]
      have hcs : cs ≠ [] := by
        rintro rfl; apply h3; rw [← h2']; rfl
      have : ps.length ≠ 0 := by intro h; apply h3; rw [h]
      by_cases hr : r = 0 <;> simp_all [bind, Except.bind]
    · rw [pairs_err 1 ps (by omega)]
      simp [bind, Except.bind, h3]
      omega

theorem mixture_kernel_radius {r : Nat} {ps : List ℝ} {κ : AnyKernel}
    (h : gaussianMixtureKernel r ps = .ok κ) : κ.1 = r := by
  have := kernel_side _ _ h
  simp at this
  exact this.symm

/-! ## C28: `set_params(v); get_params() == v` -/

/-- C28 for `CCA`: a vector of the length `get_params` reports is stored and read back as it
is; families, modes and amplitudes of the growth functions, the radius, the stored configs and
`dt` do not change. -/
theorem cca_params_roundtrip (o : CCAObj) (l : List ℝ) (hk : o.kernelParams = .vec l)
    (hl : Spec.MixtureLength l.length) (hr : o.kernelRadius ≠ 0) (old v : List ℝ)
    (ho : o.getParams = .ok old) (hv : v.length = old.length) :
    ∃ o', o.setParams v = (o', none) ∧ o'.getParams = .ok v ∧
      List.Forall₂ Spec.SameFamily o.genesis o'.genesis ∧
      List.Forall₂ Spec.SameFamily o.persistence o'.persistence ∧
      (∃ l', o'.kernelParams = .vec l' ∧ l'.length = l.length ∧
        gaussianMixtureKernel o.kernelRadius l' = .ok o'.nbLayer) ∧
      o'.nbKernel = o'.nbLayer ∧
      o' = { o with genesis := o'.genesis, persistence := o'.persistence,
                    kernelParams := o'.kernelParams, nbKernel := o'.nbKernel,
                    nbLayer := o'.nbLayer } := by
  have hold : old = readActs o.genesis ++ readActs o.persistence ++ l := by
    simpa [CCAObj.getParams, hk, KParams.ravel, bind, Except.bind, pure, Except.pure]
      using ho.symm
  have hlen : v.length = (readActs o.genesis).length + (readActs o.persistence).length + l.length := by
    rw [hv, hold]; simp; omega
  obtain ⟨gs, g1, g2, g3⟩ := writeActs_enough o.genesis v (by omega)
  obtain ⟨ps, p1, p2, p3⟩ := writeActs_enough o.persistence (v.drop (readActs o.genesis).length)
    (by rw [List.length_drop]; omega)
  rw [List.drop_drop] at p1
  have hrest : (v.drop ((readActs o.genesis).length + (readActs o.persistence).length)).length
      = l.length := by rw [List.length_drop]; omega
  have htake : (v.drop ((readActs o.genesis).length + (readActs o.persistence).length)).take
      l.length = v.drop ((readActs o.genesis).length + (readActs o.persistence).length) :=
    List.take_of_length_le (by omega)
  obtain ⟨κ, hκ⟩ := (mixture_kernel_iff o.kernelRadius
    (v.drop ((readActs o.genesis).length + (readActs o.persistence).length))).2
    ⟨by rw [hrest]; exact hl, hr⟩
  refine ⟨{ o with
      genesis := gs, persistence := ps, nbKernel := κ, nbLayer := κ
      kernelParams :=
        .vec (v.drop ((readActs o.genesis).length + (readActs o.persistence).length)) },
    ?_, ?_, g3, p3, ⟨_, rfl, hrest, hκ⟩, rfl, rfl⟩
  · rw [CCAObj.setParams, g1]
    dsimp only
    rw [p1]
    dsimp only
    rw [hk]
    simp only [KParams.len, htake, hκ]
    rfl
  · simp only [CCAObj.getParams, KParams.ravel,
      bind, Except.bind, pure, Except.pure, g2, p2]
    rw [← List.take_add, List.take_append_drop]

/-- C28 for `Lenia`, whose parameters are the genesis parameters only. -/
theorem lenia_params_roundtrip (o : CCAObj) (v : List ℝ) (hv : v.length = o.leniaGetParams.length) :
    ∃ o', o.leniaSetParams v = (o', none) ∧ o'.leniaGetParams = v ∧
      List.Forall₂ Spec.SameFamily o.genesis o'.genesis ∧ o' = { o with genesis := o'.genesis } := by
  obtain ⟨gs, g1, g2, g3⟩ := writeActs_enough o.genesis v (by rw [hv]; exact le_rfl)
  refine ⟨{ o with genesis := gs }, by rw [CCAObj.leniaSetParams, g1], ?_, g3, rfl⟩
  rw [CCAObj.leniaGetParams, g2, List.take_of_length_le]
  rw [hv]; exact le_rfl

/-- C28 for `NCA`, with a kernel parameter vector. -/
theorem nca_params_roundtrip (o : NCAObj) (l : List ℝ) (hk : o.kernelParams = .vec l)
    (hl : Spec.MixtureLength l.length) (hr : o.kernelRadius ≠ 0) (v : List ℝ)
    (hv : v.length = o.getParams.length) :
    ∃ o', o.setParams v = (o', none) ∧ o'.getParams = v ∧
      o'.tensors.map List.length = o.tensors.map List.length ∧
      ∃ l', o'.kernelParams = .vec l' ∧ gaussianMixtureKernel o.kernelRadius l' = .ok o'.nbLayer := by
  have hlen : v.length = Spec.size o.tensors + l.length := by
    rw [hv, NCAObj.getParams, hk, List.length_append, readTensors_length]
  obtain ⟨ts, h1, h2, h3⟩ := writeTensors_enough o.tensors v (by omega)
  have hrest : (v.drop (Spec.size o.tensors)).length = l.length := by rw [List.length_drop]; omega
  have htake : (v.drop (Spec.size o.tensors)).take l.length = v.drop (Spec.size o.tensors) :=
    List.take_of_length_le (by omega)
  obtain ⟨κ, hκ⟩ := (mixture_kernel_iff o.kernelRadius (v.drop (Spec.size o.tensors))).2
    ⟨by rw [hrest]; exact hl, hr⟩
  refine ⟨{ o with tensors := ts, kernelParams := .vec (v.drop (Spec.size o.tensors)),
                   nbKernel := κ, nbLayer := κ }, ?_, ?_, h2, _, rfl, hκ⟩
  · rw [NCAObj.setParams, h1]
    simp only [hk, htake, hκ]
  · rw [NCAObj.getParams]
    simp only
    rw [h3, List.take_append_drop]

/-- C28 for an `NCA` without kernel parameters. -/
theorem nca_params_roundtrip_none (o : NCAObj) (hk : o.kernelParams = .none) (v : List ℝ)
    (hv : v.length = o.getParams.length) :
    ∃ o', o.setParams v = (o', none) ∧ o'.getParams = v ∧ o' = { o with tensors := o'.tensors } := by
  have hlen : v.length = Spec.size o.tensors := by
    rw [hv, NCAObj.getParams, hk, List.length_append, readTensors_length]; rfl
  obtain ⟨ts, h1, h2, h3⟩ := writeTensors_enough o.tensors v (by omega)
  refine ⟨{ o with tensors := ts }, ?_, ?_, rfl⟩
  · rw [NCAObj.setParams, h1]
    simp only [hk]
  · rw [NCAObj.getParams]
    simp only [hk]
    rw [h3, List.append_nil, List.take_of_length_le (by omega)]

/-- C28 for `RxnDfn`: the order is diffusion of u, diffusion of v, feed, kill. -/
theorem rxn_params_roundtrip (o : RxnObj) (v : List ℝ) (hv : v.length = o.getParams.length) :
    ∃ o', o.setParams v = (o', none) ∧ o'.getParams = v ∧
      o' = { o with diffU := o'.diffU, diffV := o'.diffV, f := o'.f, k := o'.k } := by
  match v, hv with
  | [a, b, c, d], _ => exact ⟨_, rfl, rfl, rfl⟩
  | [], h => simp [RxnObj.getParams] at h
  | [_], h => simp [RxnObj.getParams] at h
  | [_, _], h => simp [RxnObj.getParams] at h
  | [_, _, _], h => simp [RxnObj.getParams] at h
  | _ :: _ :: _ :: _ :: _ :: _, h => simp [RxnObj.getParams] at h

/-- C28 for `CPPN` (a plain list of tensors). -/
theorem cppn_params_roundtrip {K : Type} (ts : List (List K)) (v : List K)
    (hv : v.length = (readTensors ts).length) :
    ∃ ts', writeTensors ts v = (ts', .ok []) ∧ readTensors ts' = v ∧
      ts'.map List.length = ts.map List.length := by
  rw [readTensors_length] at hv
  obtain ⟨ts', h1, h2, h3⟩ := writeTensors_enough ts v (by omega)
  exact ⟨ts', by rw [h1, List.drop_eq_nil_of_le (by omega)],
    by rw [h3, List.take_of_length_le (by omega)], h2⟩

/-- C28 for `CPPNPlus`: any vector that fills the pattern network is stored exactly; whatever
is left becomes the rule parameters, even if their number changes. -/
theorem cppnplus_params_roundtrip {K : Type} (fil : K → K) (c : CPPNPlus K)
    (hf : c.agent.filter = false) (v : List K) (hv : (readTensors c.tensors).length ≤ v.length) :
    ∃ c', c.setParams fil v = (c', none) ∧ c'.getParams = v ∧
      c'.agent.params = v.drop (readTensors c.tensors).length := by
  rw [readTensors_length] at hv ⊢
  obtain ⟨ts', h1, h2, h3⟩ := writeTensors_enough c.tensors v hv
  refine ⟨{ c with tensors := ts', agent := c.agent.setParams fil (v.drop (Spec.size c.tensors)) },
    by rw [CPPNPlus.setParams, h1], ?_, ?_⟩
  · simp only [CPPNPlus.getParams, ParamsAgent.setParams, hf]
    rw [h3]
    exact List.take_append_drop _ _
  · simp [ParamsAgent.setParams, hf]

/-- C28 for `ParamsAgent` without the filter. -/
theorem agent_params_roundtrip (a : ParamsAgent ℝ) (hf : a.filter = false) (v : List ℝ) :
    (a.setParams ParamsAgent.fil v).params = v := by
  simp [ParamsAgent.setParams, hf]

/-- C28, exception: with `filter_params` the vector is read back exactly when all entries lie
in `[0.0001, 1]`. -/
theorem agent_params_filter_iff (a : ParamsAgent ℝ) (hf : a.filter = true) (v : List ℝ) :
    (a.setParams ParamsAgent.fil v).params = v ↔ ∀ x ∈ v, 0.0001 ≤ x ∧ x ≤ 1 := by
  have key : ∀ x : ℝ, ParamsAgent.fil x = x ↔ 0.0001 ≤ x ∧ x ≤ 1 := by
    intro x
    unfold ParamsAgent.fil clampR
    constructor
    · intro h
      have h1 : min (max |x| 0.0001) 1 ≤ (1 : ℝ) := min_le_right _ _
      have h2 : (0.0001 : ℝ) ≤ min (max |x| 0.0001) 1 :=
        le_min (le_max_right _ _) (by norm_num)
      rw [h] at h1 h2
      exact ⟨h2, h1⟩
    · rintro ⟨h1, h2⟩
      have : 0 ≤ x := le_trans (by norm_num) h1
      rw [abs_of_nonneg this, max_eq_left h1, min_eq_left h2]
  simp only [ParamsAgent.setParams, hf, if_true]
  constructor
  · intro h x hx
    have := List.map_eq_map_iff.1 (h.trans (List.map_id v).symm) x hx
    exact (key x).1 this
  · intro h
    conv_rhs => rw [← List.map_id v]
    exact List.map_congr_left fun x hx => (key x).2 (h x hx)

/-- C28, exception: a filtering agent does not store `-0.5`. -/
theorem agent_params_filter_refuted :
    ∃ (a : ParamsAgent ℝ) (v : List ℝ), v.length = a.params.length ∧
      (a.setParams ParamsAgent.fil v).params ≠ v := by
  refine ⟨⟨[0.1], true⟩, [-0.5], rfl, fun h => ?_⟩
  have := (agent_params_filter_iff _ rfl _).1 h (-0.5) (by simp)
  norm_num at this

/-! ## C29: vectors of the wrong length -/

/-- C29: a vector longer than needed is accepted and its tail ignored (`CCA`). -/
theorem cca_params_longer (o : CCAObj) (l : List ℝ) (hk : o.kernelParams = .vec l)
    (v extra : List ℝ)
    (hv : v.length = (readActs o.genesis).length + (readActs o.persistence).length + l.length) :
    o.setParams (v ++ extra) = o.setParams v := by
  have h1 : ∀ (as : List (Act ℝ)) (w : List ℝ), (readActs as).length ≤ w.length →
      writeActs as (w ++ extra) = ((writeActs as w).1, .ok (w.drop (readActs as).length ++ extra)) := by
    intro as
    induction as with
    | nil => intro w _; simp [writeActs, readActs]
    | cons a as ih =>
      intro w hw
      rw [readActs_cons, List.length_append, readTensors_length] at hw
      have hT : ∀ (ts : List (List ℝ)) (w : List ℝ), Spec.size ts ≤ w.length →
          writeTensors ts (w ++ extra) =
            ((writeTensors ts w).1, .ok (w.drop (Spec.size ts) ++ extra)) := by
        intro ts
        induction ts with
        | nil => intro w _; simp [writeTensors, Spec.size]
        | cons t ts ih =>
          intro w hw
          have hs : Spec.size (t :: ts) = t.length + Spec.size ts := by simp [Spec.size]
          rw [hs] at hw ⊢
          have h1 : ((w ++ extra).take t.length).length = t.length := by simp; omega
          have h2 : (w.take t.length).length = t.length := by simp; omega
          rw [writeTensors, if_pos h1, writeTensors, if_pos h2,
            List.drop_append_of_le_length (by omega), ih _ (by rw [List.length_drop]; omega),
            List.take_append_of_le_length (by omega), List.drop_drop]
      obtain ⟨ts', e1, _, _⟩ := writeTensors_enough a.tensors w (by omega)
      rw [writeActs, hT _ _ (by omega), writeActs, e1]
      simp only
      rw [ih _ (by rw [List.length_drop]; omega), readActs_cons, List.length_append,
        readTensors_length, List.drop_drop]
  obtain ⟨gs, g1, _, _⟩ := writeActs_enough o.genesis v (by omega)
  obtain ⟨ps, p1, _, _⟩ := writeActs_enough o.persistence (v.drop (readActs o.genesis).length)
    (by rw [List.length_drop]; omega)
  rw [CCAObj.setParams, CCAObj.setParams, h1 _ _ (by omega), g1]
  simp only
  rw [h1 _ _ (by rw [List.length_drop]; omega), p1, hk]
  simp only [KParams.len]
  rw [List.take_append_of_le_length (by simp; omega)]

/-- C29, also for `RxnDfn`. -/
theorem rxn_params_longer (o : RxnObj) (v extra : List ℝ) (hv : v.length = 4) :
    o.setParams (v ++ extra) = o.setParams v := by
  match v, hv with
  | [a, b, c, d], _ => rfl

/-- C29: no atomicity.  A vector too short for the growth functions of a `CCA` raises
ValueError, but the parameters read afterwards start with a prefix of the rejected vector: all
tensors up to the one that could not be filled have been overwritten. -/
theorem cca_params_short (o : CCAObj) (v : List ℝ)
    (hv : v.length < (readActs o.genesis).length + (readActs o.persistence).length) :
    ∃ (k : Nat) (o' : CCAObj),
      o.setParams v = (o', some .value) ∧
      Spec.size ((Spec.layout (o.genesis ++ o.persistence)).take k) ≤ v.length ∧
      v.length < Spec.size ((Spec.layout (o.genesis ++ o.persistence)).take (k + 1)) ∧
      readActs (o'.genesis ++ o'.persistence) =
        v.take (Spec.size ((Spec.layout (o.genesis ++ o.persistence)).take k)) ++
        (readActs (o.genesis ++ o.persistence)).drop
          (Spec.size ((Spec.layout (o.genesis ++ o.persistence)).take k)) ∧
      o' = { o with genesis := o'.genesis, persistence := o'.persistence } := by
  have hw : ∀ (as bs : List (Act ℝ)) (v : List ℝ), (readActs as).length ≤ v.length →
      writeActs (as ++ bs) v =
        ((writeActs as v).1 ++ (writeActs bs (v.drop (readActs as).length)).1,
          (writeActs bs (v.drop (readActs as).length)).2) := by
    intro as bs
    induction as with
    | nil => intro v _; simp [writeActs, readActs]
    | cons a as ih =>
      intro v h
      rw [readActs_cons, List.length_append, readTensors_length] at h
      obtain ⟨ts, h1, _, _⟩ := writeTensors_enough a.tensors v (by omega)
      rw [List.cons_append, writeActs, h1, writeActs, h1]
      simp only
      rw [ih _ (by rw [List.length_drop]; omega), readActs_cons, List.length_append,
        readTensors_length, List.drop_drop]
      rfl
  have hw' : ∀ (as bs : List (Act ℝ)) (v : List ℝ), v.length < (readActs as).length →
      writeActs (as ++ bs) v = ((writeActs as v).1 ++ bs, .error .value) := by
    intro as bs
    induction as with
    | nil => intro v h; simp [readActs] at h
    | cons a as ih =>
      intro v h
      rw [readActs_cons, List.length_append, readTensors_length] at h
      by_cases hv : v.length < Spec.size a.tensors
      · obtain ⟨k, ts, _, _, _, h4, _⟩ := writeTensors_short a.tensors v hv
        rw [List.cons_append, writeActs, h4, writeActs, h4]
        rfl
      · obtain ⟨ts, h1, _, _⟩ := writeTensors_enough a.tensors v (by omega)
        rw [List.cons_append, writeActs, h1, writeActs, h1]
        simp only
        rw [ih _ (by rw [List.length_drop]; omega)]
        rfl
  have hra : ∀ as bs : List (Act ℝ), readActs (as ++ bs) = readActs as ++ readActs bs := by
    intro as bs; simp [readActs]
  obtain ⟨k, as', h1, h2, h3, h4, h5, h6⟩ := writeActs_short (o.genesis ++ o.persistence) v
    (by rw [hra, List.length_append]; omega)
  by_cases hg : v.length < (readActs o.genesis).length
  · rw [hw' _ _ _ hg] at h4
    obtain ⟨_, gs, _, _, _, g4, _, _⟩ := writeActs_short o.genesis v hg
    refine ⟨k, { o with genesis := gs }, by rw [CCAObj.setParams, g4], h2, h3, ?_, rfl⟩
    rw [g4] at h4
    simp only [Prod.mk.injEq] at h4
    rw [← h6, ← h4.1]
  · obtain ⟨gs, g1, _, _⟩ := writeActs_enough o.genesis v (by omega)
    rw [hw _ _ _ (by omega)] at h4
    obtain ⟨_, ps, _, _, _, p4, _, _⟩ := writeActs_short o.persistence
      (v.drop (readActs o.genesis).length) (by rw [List.length_drop]; omega)
    refine ⟨k, { o with genesis := gs, persistence := ps }, ?_, h2, h3, ?_, rfl⟩
    · rw [CCAObj.setParams, g1]
      simp only
      rw [p4]
    · rw [p4, g1] at h4
      simp only [Prod.mk.injEq] at h4
      rw [← h6, ← h4.1]

/-- C29: the same for `CPPN` and the weights of an `NCA`. -/
theorem tensors_params_short {K : Type} (ts : List (List K)) (v : List K)
    (hv : v.length < (readTensors ts).length) :
    ∃ k ts', writeTensors ts v = (ts', .error .value) ∧
      Spec.size (ts.take k) ≤ v.length ∧ v.length < Spec.size (ts.take (k + 1)) ∧
      readTensors ts' =
        v.take (Spec.size (ts.take k)) ++ (readTensors ts).drop (Spec.size (ts.take k)) := by
  obtain ⟨k, ts', _, h2, h3, h4, _, h6⟩ := writeTensors_short ts v (by rwa [← readTensors_length])
  exact ⟨k, ts', h4, h2, h3, h6⟩

/-- C29: `RxnDfn` assigns every entry it finds before it raises IndexError. -/
theorem rxn_params_short (o : RxnObj) (v : List ℝ) (hv : v.length < 4) :
    ∃ o', o.setParams v = (o', some .index) ∧
      o'.getParams = v ++ o.getParams.drop v.length := by
  match v, hv with
  | [], _ => exact ⟨_, rfl, rfl⟩
  | [a], _ => exact ⟨_, rfl, rfl⟩
  | [a, b], _ => exact ⟨_, rfl, rfl⟩
  | [a, b, c], _ => exact ⟨_, rfl, rfl⟩
  | _ :: _ :: _ :: _ :: _, h => simp at h; omega

/-- C29: a vector short only in the kernel part.  The call succeeds exactly when the shortened
kernel part can still be read as a mixture; the kernel parameters are then fewer than before. -/
theorem cca_params_kernel_short (o : CCAObj) (l : List ℝ) (hk : o.kernelParams = .vec l)
    (hr : o.kernelRadius ≠ 0) (v : List ℝ)
    (h1 : (readActs o.genesis).length + (readActs o.persistence).length ≤ v.length)
    (h2 : v.length < (readActs o.genesis).length + (readActs o.persistence).length + l.length) :
    (o.setParams v).1.kernelParams =
        .vec (v.drop ((readActs o.genesis).length + (readActs o.persistence).length)) ∧
      ((o.setParams v).2 = none ↔ Spec.MixtureLength
        (v.length - ((readActs o.genesis).length + (readActs o.persistence).length))) := by
  obtain ⟨gs, g1, _, _⟩ := writeActs_enough o.genesis v (by omega)
  obtain ⟨ps, p1, _, _⟩ := writeActs_enough o.persistence (v.drop (readActs o.genesis).length)
    (by rw [List.length_drop]; omega)
  rw [List.drop_drop] at p1
  have htake : (v.drop ((readActs o.genesis).length + (readActs o.persistence).length)).take
      l.length = v.drop ((readActs o.genesis).length + (readActs o.persistence).length) :=
    List.take_of_length_le (by rw [List.length_drop]; omega)
  have hm := mixture_kernel_iff o.kernelRadius
    (v.drop ((readActs o.genesis).length + (readActs o.persistence).length))
  rw [List.length_drop] at hm
  rw [CCAObj.setParams, g1]
  simp only
  rw [p1]
  simp only [hk, KParams.len, htake]
  cases hκ : gaussianMixtureKernel o.kernelRadius
      (v.drop ((readActs o.genesis).length + (readActs o.persistence).length)) with
  | ok κ =>
    refine ⟨rfl, fun _ => (hm.1 ⟨κ, hκ⟩).1, fun _ => rfl⟩
  | error e =>
    refine ⟨rfl, fun h => by simp at h, fun h => ?_⟩
    obtain ⟨κ, hκ'⟩ := hm.2 ⟨h, hr⟩
    rw [hκ] at hκ'
    cases hκ'

/-- C29, silent acceptance: nine kernel parameters (three amplitude/mean/width triples) can be
replaced by eight, which are read as four mean/width pairs. -/
theorem cca_params_kernel_short_refuted (o : CCAObj) (l : List ℝ) (hk : o.kernelParams = .vec l)
    (hl : l.length = 9) (hr : o.kernelRadius ≠ 0) (v : List ℝ)
    (hv : v.length = (readActs o.genesis).length + (readActs o.persistence).length + 8) :
    ∃ o' l', o.setParams v = (o', none) ∧ o'.kernelParams = .vec l' ∧ l'.length = 8 ∧
      ∃ cs, mixtureComponents 1 l' = .ok cs ∧ cs.length = 4 := by
  obtain ⟨h1, h2⟩ := cca_params_kernel_short o l hk hr v (by omega) (by omega)
  refine ⟨(o.setParams v).1, _, ?_, h1, by rw [List.length_drop]; omega, ?_⟩
  · exact Prod.ext rfl (h2.2 (by rw [hv]; unfold Spec.MixtureLength; omega))
  · have hl8 : (v.drop ((readActs o.genesis).length + (readActs o.persistence).length)).length = 8 := by
      rw [List.length_drop]; omega
    obtain ⟨cs, c1, c2⟩ := pairs_ok (1 : ℝ) _ (by rw [hl8] :
      (v.drop ((readActs o.genesis).length + (readActs o.persistence).length)).length % 2 = 0)
    refine ⟨cs, ?_, by omega⟩
    rw [mixtureComponents, if_neg (by rw [hl8]; decide), c1]

/-! ## C30: re-setting the own parameters -/

/-- C30: what `set_params(get_params())` does: growth functions stay, the kernel in use becomes
the Gaussian mixture of the stored kernel parameters. -/
theorem cca_set_own (o : CCAObj) (l : List ℝ) (hk : o.kernelParams = .vec l)
    (κ : AnyKernel) (hκ : gaussianMixtureKernel o.kernelRadius l = .ok κ) :
    ∃ v, o.getParams = .ok v ∧ o.setParams v = ({ o with nbKernel := κ, nbLayer := κ }, none) := by
  refine ⟨readActs o.genesis ++ readActs o.persistence ++ l, ?_, ?_⟩
  · simp [CCAObj.getParams, hk, KParams.ravel, bind, Except.bind, pure, Except.pure]
  · rw [CCAObj.setParams, List.append_assoc, writeActs_self]
    simp only
    rw [writeActs_self]
    simp only [hk, KParams.len, List.take_length, hκ]
    cases o; cases hk; rfl

/-- C30: re-setting the own parameters leaves the step function unchanged exactly when the
kernel in use is the Gaussian mixture of the stored kernel parameters. -/
theorem cca_set_own_noop_iff (o : CCAObj) (l : List ℝ) (hk : o.kernelParams = .vec l)
    (κ : AnyKernel) (hκ : gaussianMixtureKernel o.kernelRadius l = .ok κ) (v : List ℝ)
    (hv : o.getParams = .ok v) :
    (o.setParams v).1.dynamics = o.dynamics ↔ o.nbLayer = κ := by
  obtain ⟨v', h1, h2⟩ := cca_set_own o l hk κ hκ
  rw [h1] at hv
  cases hv
  rw [h2]
  constructor
  · intro h
    exact (congrArg CCADyn.nbLayer h).symm
  · intro h
    simp only [CCAObj.dynamics, h]

/-- C30, refuted for Moore neighborhoods: re-setting the own parameters of a Life-like
automaton always replaces its kernel, whatever the stored parameters and the radius. -/
theorem cca_set_own_moore_refuted (o : CCAObj) (r : Nat) (hr : 1 ≤ r)
    (hm : o.nbLayer = ⟨r, mooreLike r⟩) (l : List ℝ) (hk : o.kernelParams = .vec l)
    (κ : AnyKernel) (hκ : gaussianMixtureKernel o.kernelRadius l = .ok κ) (v : List ℝ)
    (hv : o.getParams = .ok v) :
    (o.setParams v).1.dynamics ≠ o.dynamics := by
  rw [Ne, cca_set_own_noop_iff o l hk κ hκ v hv, hm]
  rintro rfl
  obtain ⟨_, _, _, _, h5⟩ := kernel_normalised _ (by simp [radialNames]) _ hκ
  obtain ⟨κ', h1, h2, h3⟩ := moore_like ⟨"MooreLike", some r, none⟩ rfl r rfl hr
  have : (⟨r, mooreLike r⟩ : AnyKernel) = ⟨r, κ'⟩ := by
    have h4 : getKernel ⟨"MooreLike", some r, none⟩ = .ok ⟨r, mooreLike r⟩ := by
      simp [getKernel, Nat.one_le_iff_ne_zero.1 hr]
    rw [h4] at h1
    exact Except.ok.inj h1
  rw [this] at h5
  simp only [h3] at h5
  exact lt_irrefl _ h5

/-- C28/C29, refuted for kernels with one number as only argument (a `LaplacianOfGaussian` or
`CosOverX2` config with one entry): the stored parameter is a 0-d array.  `get_params` lists it, but
`set_params` raises IndexError for every vector that is long enough for the growth functions, after
overwriting them. -/
theorem cca_params_scalar_refuted (o : CCAObj) (k : String) (x : ℝ)
    (hk : o.kernelParams = updateKernelParams [(k, .num x)]) :
    o.getParams = .ok (readActs o.genesis ++ readActs o.persistence ++ [x]) ∧
    ∀ v : List ℝ, (readActs o.genesis).length + (readActs o.persistence).length ≤ v.length →
      ∃ o', o.setParams v = (o', some .index) ∧
        readActs o'.genesis ++ readActs o'.persistence =
          v.take ((readActs o.genesis).length + (readActs o.persistence).length) ∧
        o' = { o with genesis := o'.genesis, persistence := o'.persistence } := by
  have hk' : o.kernelParams = .scalar x := hk
  refine ⟨by simp [CCAObj.getParams, hk', KParams.ravel, bind, Except.bind, pure, Except.pure],
    fun v hv => ?_⟩
  obtain ⟨gs, g1, g2, _⟩ := writeActs_enough o.genesis v (by omega)
  obtain ⟨ps, p1, p2, _⟩ := writeActs_enough o.persistence (v.drop (readActs o.genesis).length)
    (by rw [List.length_drop]; omega)
  refine ⟨{ o with genesis := gs, persistence := ps }, ?_, ?_, rfl⟩
  · rw [CCAObj.setParams, g1]
    simp only [p1, hk', KParams.len]
  · simp only [g2, p2]
    rw [List.take_add]

/-- With the same number in a one-element tensor it works. -/
example (k : String) (x : ℝ) : updateKernelParams [(k, .vec [x])] = .vec [x] := by
  simp [updateKernelParams, KwVal.ravel]

/-! ### Gaussian kernels -/

theorem gaussian_kernel_eq (r : Nat) (hr : r ≠ 0) (mu s : ℝ) :
    getKernel ⟨"Gaussian", some r, some { mu := some mu, sigma := some s }⟩ =
      .ok ⟨r, normaliseKernel fun a b => bump mu s (radialGrid r a b)⟩ := by
  unfold getKernel kernelFn
  simp [hr]
  rfl

theorem mixture_kernel_pair (r : Nat) (hr : r ≠ 0) (mu s : ℝ) :
    gaussianMixtureKernel r [mu, s] =
      .ok ⟨r, normaliseKernel fun a b => bump mu s (radialGrid r a b)⟩ := by
  have hb : ∀ x, clampR 0 1 (bump mu s x) = bump mu s x := by
    intro x
    have h0 : 0 ≤ bump mu s x := (Real.exp_pos _).le
    have h1 : bump mu s x ≤ 1 := by
      unfold bump
      rw [Real.exp_le_one_iff]
      have := sq_nonneg ((x - mu) / (eps9 + s))
      linarith
    rw [clampR, max_eq_left h0, min_eq_left h1]
  unfold gaussianMixtureKernel getKernel kernelFn
  simp [hr, mixtureComponents, mixtureComponents.pairs, bind, Except.bind, pure, Except.pure, mixtureFn, hb]

/-- C30: it is a no-op for the `Gaussian` kernel of orbium, whose stored parameters are
`[mu, sigma]`. -/
theorem cca_set_own_gaussian (o : CCAObj) (mu s : ℝ) (hr : o.kernelRadius ≠ 0)
    (hk : o.kernelParams = updateKernelParams [("mu", .num mu), ("sigma", .num s)])
    (hl : getKernel ⟨"Gaussian", some o.kernelRadius, some { mu := some mu, sigma := some s }⟩ =
      .ok o.nbLayer) (v : List ℝ) (hv : o.getParams = .ok v) :
    (o.setParams v).2 = none ∧ (o.setParams v).1.dynamics = o.dynamics := by
  have hκ := mixture_kernel_pair o.kernelRadius hr mu s
  have hk' : o.kernelParams = .vec [mu, s] := by simpa [updateKernelParams, KwVal.ravel] using hk
  refine ⟨?_, (cca_set_own_noop_iff o _ hk' _ hκ v hv).2 ?_⟩
  · obtain ⟨v', h1, h2⟩ := cca_set_own o _ hk' _ hκ
    rw [h1] at hv; cases hv
    rw [h2]
  · rw [gaussian_kernel_eq _ hr] at hl
    exact (Except.ok.inj hl).symm

theorem bump_eq_one_iff {mu s x : ℝ} (hs : 0 < s) : bump mu s x = 1 ↔ x = mu := by
  have he : eps9 + s ≠ 0 := by have := eps9_pos; positivity
  unfold bump
  rw [Real.exp_eq_one_iff]
  constructor
  · intro h
    have h0 : ((x - mu) / (eps9 + s)) ^ 2 = 0 := by linarith
    have h1 := pow_eq_zero_iff (two_ne_zero) |>.1 h0
    rcases div_eq_zero_iff.1 h1 with h | h
    · linarith
    · exact absurd h he
  · rintro rfl; simp

theorem bump_centre_edge {mu s : ℝ} (hs : 0 < s) : bump mu s 0 = bump mu s 1 ↔ mu = 1 / 2 := by
  have he : eps9 + s ≠ 0 := by have := eps9_pos; positivity
  have he2 : (0 : ℝ) < (eps9 + s) ^ 2 := by positivity
  unfold bump
  rw [Real.exp_eq_exp, div_left_inj' two_ne_zero, neg_inj, div_pow, div_pow, div_left_inj' he2.ne']
  constructor
  · intro h; nlinarith
  · rintro rfl; norm_num

theorem radial_centre : radialGrid 1 1 1 = 0 := by
  unfold radialGrid; norm_num

theorem radial_edge : radialGrid 1 1 2 = 1 := by
  unfold radialGrid
  norm_num

theorem normalise_inj {r : Nat} (κ : Fin (2 * r + 1) → Fin (2 * r + 1) → ℝ)
    (a b c d : Fin (2 * r + 1)) :
    normaliseKernel κ a b = normaliseKernel κ c d ↔ κ a b = κ c d := by
  have h := (normalise_facts κ).2.2.2
  have he := eps9_pos
  have hne : eps9 + ∑ a, ∑ b, (κ a b - kernelMin κ) ≠ 0 := by linarith
  simp only [normaliseKernel]
  rw [div_left_inj' hne]
  constructor <;> intro h <;> linarith

/-- C30, refuted for key order: the parameter vector follows the order of the keys, so a
`Gaussian` kernel written as `{"sigma": s, "mu": 1/2}` comes back as one with mean `s` and
width `1/2`. -/
theorem cca_set_own_order_refuted (o : CCAObj) (s : ℝ) (hs : 0 < s) (hs2 : s ≠ 1 / 2)
    (hr : o.kernelRadius = 1)
    (hk : o.kernelParams = updateKernelParams [("sigma", .num s), ("mu", .num (1 / 2))])
    (hl : getKernel ⟨"Gaussian", some 1, some { mu := some (1 / 2), sigma := some s }⟩ =
      .ok o.nbLayer) (v : List ℝ) (hv : o.getParams = .ok v) :
    (o.setParams v).1.dynamics ≠ o.dynamics := by
  have hκ := mixture_kernel_pair 1 one_ne_zero s (1 / 2)
  have hk' : o.kernelParams = .vec [s, 1 / 2] := by simpa [updateKernelParams, KwVal.ravel] using hk
  rw [Ne, cca_set_own_noop_iff o _ hk' _ (by rw [hr]; exact hκ) v hv]
  rw [gaussian_kernel_eq _ one_ne_zero] at hl
  rw [← Except.ok.inj hl]
  intro h
  have h' : (normaliseKernel fun a b => bump (1 / 2) s (radialGrid 1 a b)) =
      normaliseKernel fun a b => bump s (1 / 2) (radialGrid 1 a b) := by
    simpa using h
  have e1 : normaliseKernel (r := 1) (fun a b => bump (1 / 2) s (radialGrid 1 a b)) 1 1 =
      normaliseKernel (r := 1) (fun a b => bump (1 / 2) s (radialGrid 1 a b)) 1 2 := by
    rw [normalise_inj, radial_centre, radial_edge]
    exact (bump_centre_edge hs).2 rfl
  rw [h', normalise_inj, radial_centre, radial_edge, bump_centre_edge (by norm_num)] at e1
  exact hs2 e1

/-! ## The hypotheses can be met -/

/-- A radius-1 Life automaton as an object, with nine stored kernel parameters. -/
noncomputable def Witness.lifeObj : CCAObj where
  kw := {}
  kernelRadius := 1
  kernelParams := .vec [0.1, 0.2, 0.3, 0.4, 0.5, 0.6, 0.7, 0.8, 0.9]
  idKernel := ⟨1, identityKernel⟩
  nbKernel := ⟨1, mooreLike 1⟩
  idLayer := ⟨1, identityKernel⟩
  nbLayer := ⟨1, mooreLike 1⟩
  genesis := [.gaussian 0.15 0.015 true, .mixture [(1, 0.2, 0.1)] true]
  persistence := [.polynomial [1, 2, 3] false, .doubleGaussian 0 1 2 3 true]
  seqWeights := (fun _ _ => 0, fun _ _ => 0)
  nbCfg := some ⟨"MooreLike", some 1, none⟩
  genCfg := none
  perCfg := none
  dt := 1
  t := 0

/-- An object with a Gaussian kernel. -/
noncomputable def Witness.gaussObj (κ : AnyKernel) (kp : KParams) : CCAObj :=
  { Witness.lifeObj with nbLayer := κ, nbKernel := κ, kernelParams := kp }

example : ∃ old, Witness.lifeObj.getParams = .ok old ∧ old.length = 20 :=
  ⟨_, rfl, by simp [Witness.lifeObj, readActs, Act.tensors, readTensors]⟩

example : Spec.MixtureLength 9 := ⟨by decide, by decide⟩

example : ∃ κ, gaussianMixtureKernel Witness.lifeObj.kernelRadius
    [0.1, 0.2, 0.3, 0.4, 0.5, 0.6, 0.7, 0.8, 0.9] = .ok κ :=
  (mixture_kernel_iff _ _).2 ⟨⟨by decide, by decide⟩, by decide⟩

example : Witness.lifeObj.nbLayer = ⟨1, mooreLike 1⟩ := rfl

example : ∃ o : CCAObj, o.kernelRadius = 1 ∧
    o.kernelParams = updateKernelParams [("sigma", .num 0.15), ("mu", .num (1 / 2))] ∧
    getKernel ⟨"Gaussian", some 1, some { mu := some (1 / 2), sigma := some 0.15 }⟩ =
      .ok o.nbLayer :=
  ⟨Witness.gaussObj ⟨1, normaliseKernel fun a b => bump (1 / 2) 0.15 (radialGrid 1 a b)⟩
      (updateKernelParams [("sigma", .num 0.15), ("mu", .num (1 / 2))]), rfl, rfl,
    gaussian_kernel_eq 1 one_ne_zero _ _⟩

end Yuca
