import Verif.Model.Grad
import Verif.Lemmas.Forward
import Mathlib.Data.List.Basic
import Mathlib.Tactic.Linarith

/-!
# C112: gradient switches and the parameter registry
-/

namespace Yuca

/-! ## Switching gradients off -/

/-- Everything a `CCA` object holds: parameters of its functions, its layers and its registry. -/
def Spec.holds (o : GradCCA) (x : Nat) : Prop :=
  (∃ f ∈ o.genesis, x ∈ f) ∨ (∃ f ∈ o.persistence, x ∈ f) ∨ x ∈ o.weights ∨ x ∈ o.idLayer ∨
    x ∈ o.nbLayer ∨ ∃ name ∈ o.named, o.registry name = some x

/-- No parameter requires gradients. -/
def Spec.Untrained (o : GradCCA) : Prop := o.useGrad = false ∧ ∀ x, Spec.holds o x → o.flag x = false

/-- The same parameters, functions, layers and names. -/
structure Spec.SameParts (o o' : GradCCA) : Prop where
  genesis : o'.genesis = o.genesis
  persistence : o'.persistence = o.persistence
  weights : o'.weights = o.weights
  idLayer : o'.idLayer = o.idLayer
  registry : o'.registry = o.registry
  named : o'.named = o.named

theorem setFlags_false {ids : List Nat} {flag : Nat → Bool} {x : Nat}
    (h : x ∈ ids ∨ flag x = false) : setFlags ids false flag x = false := by
  unfold setFlags
  split
  · rfl
  · exact h.resolve_left ‹_›

/-- C112: `no_grad` switches off everything the object holds. -/
theorem noGrad_quiet (o : GradCCA) : Spec.Untrained o.noGrad ∧ Spec.SameParts o o.noGrad ∧
    o.noGrad.nbLayer = o.nbLayer := by
  refine ⟨⟨rfl, fun x hx => ?_⟩, ⟨rfl, rfl, rfl, rfl, rfl, rfl⟩, rfl⟩
  show setFlags o.persistence.flatten false (setFlags o.genesis.flatten false
      (setFlags o.weights false (setFlags o.namedParameters false o.flag))) x = false
  have hreg : ∀ name ∈ o.named, o.registry name = some x → x ∈ o.registered :=
    fun name h1 h2 => List.mem_filterMap.2 ⟨name, h1, h2⟩
  rcases hx with ⟨f, hf, hx⟩ | ⟨f, hf, hx⟩ | hx | hx | hx | ⟨name, h1, h2⟩
  · exact setFlags_false (.inr (setFlags_false (.inl (List.mem_flatten.2 ⟨f, hf, hx⟩))))
  · exact setFlags_false (.inl (List.mem_flatten.2 ⟨f, hf, hx⟩))
  · exact setFlags_false (.inr (setFlags_false (.inr (setFlags_false (.inl hx)))))
  all_goals
    refine setFlags_false (.inr (setFlags_false (.inr (setFlags_false (.inr
      (setFlags_false (.inl ?_)))))))
    unfold GradCCA.namedParameters
    simp only [List.mem_append]
  · exact .inl (.inl (.inr hx))
  · exact .inl (.inr hx)
  · exact .inl (.inl (.inl (hreg name h1 h2)))

theorem write_quiet {o : GradCCA} (h : Spec.Untrained o) {ids : List Nat}
    (hi : ∀ x ∈ ids, Spec.holds o x) : writeInPlace o.flag ids = .ok () := by
  unfold writeInPlace
  have : ids.any o.flag = false := by
    rw [List.any_eq_false]
    intro x hx
    rw [h.2 x (hi x hx)]
    decide
  rw [this]
  rfl

theorem mem_namedParameters {o : GradCCA} {x : Nat} (h : x ∈ o.namedParameters) :
    Spec.holds o x := by
  unfold GradCCA.namedParameters GradCCA.registered at h
  simp only [List.mem_append, List.mem_filterMap] at h
  rcases h with ((⟨name, h1, h2⟩ | h) | h) | h
  · exact .inr (.inr (.inr (.inr (.inr ⟨name, h1, h2⟩))))
  · exact .inr (.inr (.inr (.inl h)))
  · exact .inr (.inr (.inr (.inr (.inl h))))
  · exact .inr (.inr (.inl h))

theorem toDevice_eq (o : GradCCA) : o.toDevice = .ok o.noGrad := by
  unfold GradCCA.toDevice
  dsimp only
  rw [write_quiet (noGrad_quiet o).1 fun x hx => mem_namedParameters hx]
  rfl

/-- C112: `to_device` never writes to a parameter that requires gradients, whatever state the object
is in, and leaves none that does. -/
theorem toDevice_quiet (o : GradCCA) : ∃ o', o.toDevice = .ok o' ∧ Spec.Untrained o' ∧
    Spec.SameParts o o' ∧ o'.nbLayer = o.nbLayer :=
  ⟨_, toDevice_eq o, noGrad_quiet o⟩

theorem initNb_eq (o : GradCCA) : o.initNbLayer = .ok { o.create 1 with
    nbLayer := newIds o 1, flag := setFlags (newIds o 1) false (o.create 1).flag } := by
  have : writeInPlace (setFlags (newIds o 1) false (o.create 1).flag) (newIds o 1) = .ok () := by
    simp [writeInPlace, setFlags, newIds]
  unfold GradCCA.initNbLayer
  simp only [this]
  rfl

theorem initId_eq (o : GradCCA) : o.initIdLayer = .ok { o.create 1 with
    idLayer := newIds o 1, flag := setFlags (newIds o 1) false (o.create 1).flag } := by
  have : writeInPlace (setFlags (newIds o 1) false (o.create 1).flag) (newIds o 1) = .ok () := by
    simp [writeInPlace, setFlags, newIds]
  unfold GradCCA.initIdLayer
  simp only [this]
  rfl

/-- C112: `CCA.set_params` likewise: no write meets a parameter that requires gradients, and none is
left; functions, weights and registry are the same objects as before. -/
theorem setParams_quiet (o : GradCCA) : ∃ o', o.setParams = .ok o' ∧ Spec.Untrained o' ∧
    Spec.SameParts o o' := by
  obtain ⟨hq, hs, -⟩ := noGrad_quiet o
  have h1 : writeInPlace o.noGrad.flag o.noGrad.genesis.flatten = .ok () :=
    write_quiet hq fun x hx => .inl (by simpa using List.mem_flatten.1 hx)
  have h2 : writeInPlace o.noGrad.flag o.noGrad.persistence.flatten = .ok () :=
    write_quiet hq fun x hx => .inr (.inl (by simpa using List.mem_flatten.1 hx))
  unfold GradCCA.setParams
  simp only [h1, h2, initNb_eq, toDevice_eq, Bind.bind, Except.bind]
  exact ⟨_, rfl, (noGrad_quiet _).1, ⟨rfl, rfl, rfl, rfl, rfl, rfl⟩⟩

/-- C112: `Lenia.set_params` and `set_kernel_radius` likewise. -/
theorem lenia_setParams_quiet (o : GradCCA) :
    (∃ o', o.leniaSetParams = .ok o' ∧ Spec.Untrained o' ∧ Spec.SameParts o o') ∧
    ∃ o', o.setKernelRadius = .ok o' ∧ Spec.Untrained o' ∧ Spec.SameParts o o' := by
  obtain ⟨hq, hs, -⟩ := noGrad_quiet o
  have h1 : writeInPlace o.noGrad.flag o.noGrad.genesis.flatten = .ok () :=
    write_quiet hq fun x hx => .inl (by simpa using List.mem_flatten.1 hx)
  constructor
  · unfold GradCCA.leniaSetParams
    simp only [h1, Bind.bind, Except.bind]
    exact ⟨_, rfl, hq, hs⟩
  · unfold GradCCA.setKernelRadius
    simp only [initNb_eq, toDevice_eq, Bind.bind, Except.bind]
    exact ⟨_, rfl, (noGrad_quiet _).1, ⟨rfl, rfl, rfl, rfl, rfl, rfl⟩⟩

/-! ## The registry -/

theorem register_fold (l : List (PName × Nat)) (o : GradCCA) :
    let o' := l.foldl (fun o x => o.register x.1 x.2) o
    (∀ name p, (name, p) ∈ l → (∀ q, (name, q) ∈ l → q = p) →
      o'.registry name = some p ∧ name ∈ o'.named) ∧
    (∀ name, (∀ p, (name, p) ∉ l) → o'.registry name = o.registry name ∧
      (name ∈ o'.named ↔ name ∈ o.named)) ∧
    o'.genesis = o.genesis ∧ o'.persistence = o.persistence ∧ o'.weights = o.weights ∧
    o'.idLayer = o.idLayer ∧ o'.nbLayer = o.nbLayer ∧ o'.flag = o.flag ∧
    o'.useGrad = o.useGrad ∧ o'.next = o.next ∧ o'.functional = o.functional := by
  induction l generalizing o with
  | nil => exact ⟨by simp, by simp, rfl, rfl, rfl, rfl, rfl, rfl, rfl, rfl, rfl⟩
  | cons x l ih =>
    obtain ⟨h1, h2, h3, h4, h5, h6, h7, h8, h9, h10, h11⟩ := ih (o.register x.1 x.2)
    have hmem : ∀ name, name ∈ (o.register x.1 x.2).named ↔ name = x.1 ∨ name ∈ o.named := by
      intro name
      simp only [GradCCA.register]
      split
      · constructor
        · exact .inr
        · rintro (rfl | h)
          · assumption
          · exact h
      · simp only [List.mem_append, List.mem_singleton]
        exact or_comm
    refine ⟨fun name p hp hu => ?_, fun name hn => ?_, h3, h4, h5, h6, h7, h8, h9, h10, h11⟩
    · by_cases hl : ∃ q, (name, q) ∈ l
      · obtain ⟨q, hq⟩ := hl
        obtain rfl : q = p := hu q (List.mem_cons_of_mem _ hq)
        exact h1 name q hq fun q' hq' => hu q' (List.mem_cons_of_mem _ hq')
      · have hx : (name, p) = x := by
          rcases List.mem_cons.1 hp with h | h
          · exact h
          · exact absurd ⟨p, h⟩ hl
        obtain ⟨a, b⟩ := h2 name fun q hq => hl ⟨q, hq⟩
        refine ⟨?_, ?_⟩
        · refine a.trans ?_
          subst hx
          simp [GradCCA.register]
        · rw [List.foldl_cons]
          refine b.2 ((hmem name).2 (.inl ?_))
          rw [← hx]
    · obtain ⟨a, b⟩ := h2 name fun q hq => hn q (List.mem_cons_of_mem _ hq)
      have hne : name ≠ x.1 := fun h => hn x.2 (by rw [h]; exact List.mem_cons_self)
      refine ⟨?_, ?_⟩
      · refine a.trans ?_
        simp [GradCCA.register, hne]
      · rw [List.foldl_cons]
        refine b.trans ((hmem name).trans ?_)
        simp [hne]

/-- The parameter a name refers to in the functions the object has now. -/
def Spec.current (o : GradCCA) : PName → Option Nat
  | .gen i j => (o.genesis[i]?).bind fun f => f[j]?
  | .per i j => (o.persistence[i]?).bind fun f => f[j]?

theorem mem_numbered {fs : List (List Nat)} {c : Nat → Nat → PName}
    (hc : ∀ i j i' j', c i j = c i' j' → i = i' ∧ j = j') {i j p : Nat} :
    (c i j, p) ∈ (fs.zipIdx.flatMap fun f => f.1.zipIdx.map fun q => (c f.2 q.2, q.1)) ↔
      (fs[i]?).bind (fun f => f[j]?) = some p := by
  simp only [List.mem_flatMap, List.mem_map, Prod.mk.injEq, Prod.exists, Option.bind_eq_some_iff]
  constructor
  · rintro ⟨f, i', hf, q, j', hq, hn, rfl⟩
    obtain ⟨rfl, rfl⟩ := hc _ _ _ _ hn
    exact ⟨f, List.mem_zipIdx_iff_getElem?.1 hf, List.mem_zipIdx_iff_getElem?.1 hq⟩
  · rintro ⟨f, hf, hq⟩
    exact ⟨f, i, List.mem_zipIdx_iff_getElem?.2 hf, p, j, List.mem_zipIdx_iff_getElem?.2 hq, rfl, rfl⟩

theorem mem_pairs {o : GradCCA} {name : PName} {p : Nat} :
    (name, p) ∈ o.pairs ↔ Spec.current o name = some p := by
  unfold GradCCA.pairs
  rw [List.mem_append]
  cases name with
  | gen i j =>
    have h2 : ¬ ((PName.gen i j, p) ∈ o.persistence.zipIdx.flatMap fun f =>
        f.1.zipIdx.map fun p => (PName.per f.2 p.2, p.1)) := by
      simp [List.mem_flatMap]
    rw [mem_numbered (c := PName.gen) (by intro _ _ _ _ h; cases h; exact ⟨rfl, rfl⟩)]
    exact or_iff_left h2
  | per i j =>
    have h2 : ¬ ((PName.per i j, p) ∈ o.genesis.zipIdx.flatMap fun f =>
        f.1.zipIdx.map fun p => (PName.gen f.2 p.2, p.1)) := by
      simp [List.mem_flatMap]
    rw [mem_numbered (c := PName.per) (by intro _ _ _ _ h; cases h; exact ⟨rfl, rfl⟩)]
    exact or_iff_right h2

/-- C112: `include_parameters` makes every name of a parameter in use refer to that parameter and
leaves all other names as they were. -/
theorem include_registers (o : GradCCA) :
    (∀ name p, Spec.current o name = some p → o.includeParameters.registry name = some p ∧
      name ∈ o.includeParameters.named) ∧
    (∀ name, Spec.current o name = none →
      o.includeParameters.registry name = o.registry name ∧
      (name ∈ o.includeParameters.named ↔ name ∈ o.named)) ∧
    o.includeParameters.genesis = o.genesis ∧ o.includeParameters.persistence = o.persistence ∧
    o.includeParameters.flag = o.flag := by
  obtain ⟨h1, h2, h3, h4, -, -, -, h5, -⟩ := register_fold o.pairs o
  refine ⟨fun name p hp => h1 name p (mem_pairs.2 hp) fun q hq => ?_, fun name hn => h2 name
    fun p hp => ?_, h3, h4, h5⟩
  · have := mem_pairs.1 hq
    rw [hp] at this
    exact (Option.some.inj this).symm
  · rw [mem_pairs.1 hp] at hn
    cases hn

/-! ## New objects -/

/-- Consecutive new parameters, one list for every function. -/
def Spec.blocks : Nat → List Nat → List (List Nat)
  | _, [] => []
  | n, g :: gs => List.range' n g :: Spec.blocks (n + g) gs

theorem mem_blocks {n : Nat} {gs : List Nat} {f : List Nat} (hf : f ∈ Spec.blocks n gs) {x : Nat}
    (hx : x ∈ f) : n ≤ x ∧ x < n + gs.sum := by
  induction gs generalizing n with
  | nil => cases hf
  | cons g gs ih =>
    rw [List.sum_cons]
    rcases List.mem_cons.1 hf with rfl | h
    · have := List.mem_range'_1.1 hx; omega
    · have := ih h; omega

theorem blocks_lengths (n : Nat) (gs : List Nat) : (Spec.blocks n gs).map List.length = gs := by
  induction gs generalizing n with
  | nil => rfl
  | cons g gs ih => simp [Spec.blocks, ih]

theorem create_flag (o : GradCCA) (n x : Nat) :
    (o.create n).flag x = if o.next ≤ x ∧ x < o.next + n then true else o.flag x := by
  simp only [GradCCA.create, setFlags, newIds, List.mem_range'_1]

theorem addGenesis_fold (gs : List Nat) (o : GradCCA) :
    let o' := gs.foldl GradCCA.addGenesis o
    o'.genesis = o.genesis ++ Spec.blocks o.next gs ∧ o'.next = o.next + gs.sum ∧
    (∀ x, o'.flag x = if o.next ≤ x ∧ x < o.next + gs.sum then true else o.flag x) ∧
    o'.persistence = o.persistence ∧ o'.weights = o.weights ∧ o'.idLayer = o.idLayer ∧
    o'.nbLayer = o.nbLayer ∧ o'.registry = o.registry ∧ o'.named = o.named ∧
    o'.useGrad = o.useGrad ∧ o'.functional = o.functional := by
  induction gs generalizing o with
  | nil => exact ⟨by simp [Spec.blocks], by simp, by simp, rfl, rfl, rfl, rfl, rfl, rfl,
      rfl, rfl⟩
  | cons g gs ih =>
    obtain ⟨h1, h2, h3, h⟩ := ih (o.addGenesis g)
    have hn : (o.addGenesis g).next = o.next + g := rfl
    refine ⟨?_, ?_, fun x => ?_, h⟩
    · refine h1.trans ?_
      rw [hn]
      simp only [GradCCA.addGenesis, Spec.blocks, newIds, List.append_assoc, List.singleton_append]
    · refine h2.trans ?_
      rw [hn, List.sum_cons]; omega
    · refine (h3 x).trans ?_
      have hf : (o.addGenesis g).flag x =
          if o.next ≤ x ∧ x < o.next + g then true else o.flag x := create_flag o g x
      rw [hn, hf, List.sum_cons]
      split_ifs <;> first | rfl | omega

theorem addPersistence_fold (gs : List Nat) (o : GradCCA) :
    let o' := gs.foldl GradCCA.addPersistence o
    o'.persistence = o.persistence ++ Spec.blocks o.next gs ∧ o'.next = o.next + gs.sum ∧
    (∀ x, o'.flag x = if o.next ≤ x ∧ x < o.next + gs.sum then true else o.flag x) ∧
    o'.genesis = o.genesis ∧ o'.weights = o.weights ∧ o'.idLayer = o.idLayer ∧
    o'.nbLayer = o.nbLayer ∧ o'.registry = o.registry ∧ o'.named = o.named ∧
    o'.useGrad = o.useGrad ∧ o'.functional = o.functional := by
  induction gs generalizing o with
  | nil => exact ⟨by simp [Spec.blocks], by simp, by simp, rfl, rfl, rfl, rfl, rfl, rfl,
      rfl, rfl⟩
  | cons g gs ih =>
    obtain ⟨h1, h2, h3, h⟩ := ih (o.addPersistence g)
    have hn : (o.addPersistence g).next = o.next + g := rfl
    refine ⟨?_, ?_, fun x => ?_, h⟩
    · refine h1.trans ?_
      rw [hn]
      simp only [GradCCA.addPersistence, Spec.blocks, newIds, List.append_assoc,
        List.singleton_append]
    · refine h2.trans ?_
      rw [hn, List.sum_cons]; omega
    · refine (h3 x).trans ?_
      have hf : (o.addPersistence g).flag x =
          if o.next ≤ x ∧ x < o.next + g then true else o.flag x := create_flag o g x
      rw [hn, hf, List.sum_cons]
      split_ifs <;> first | rfl | omega

/-- The layer of weights: new parameters, trainable if the object wants gradients or is not in
functional mode. -/
theorem initWeights_eq (o : GradCCA) : ∃ o', o.initWeights = .ok o' ∧
    o'.weights = List.range' o.next (if o.functional then 1 else 2) ∧
    o'.next = o.next + (if o.functional then 1 else 2) ∧
    (∀ x ∈ o'.weights, o'.flag x = (o.useGrad || !o.functional)) ∧
    (∀ x, x < o.next → o'.flag x = o.flag x) ∧
    o'.genesis = o.genesis ∧ o'.persistence = o.persistence ∧ o'.idLayer = o.idLayer ∧
    o'.nbLayer = o.nbLayer ∧ o'.registry = o.registry ∧ o'.named = o.named ∧
    o'.useGrad = o.useGrad ∧ o'.functional = o.functional := by
  unfold GradCCA.initWeights
  split
  · rename_i hf
    have hw : writeInPlace (setFlags (newIds o 1) false (o.create 1).flag) (newIds o 1) = .ok () := by
      simp [writeInPlace, setFlags, newIds]
    simp only [hw, Bind.bind, Except.bind, pure, Except.pure]
    refine ⟨_, rfl, rfl, rfl, fun x hx => ?_, fun x hx => ?_, rfl, rfl, rfl, rfl, rfl, rfl, rfl, rfl⟩
    · dsimp only at hx ⊢
      simp only [setFlags, hx, if_true, hf, Bool.not_true, Bool.or_false]
      rfl
    · simp only [setFlags, newIds, List.mem_range'_1, GradCCA.create]
      split_ifs <;> first | rfl | omega
  · rename_i hf
    refine ⟨_, rfl, rfl, rfl, fun x hx => ?_, fun x hx => ?_, rfl, rfl, rfl, rfl, rfl, rfl, rfl, rfl⟩
    · have hx' : o.next ≤ x ∧ x < o.next + 2 := List.mem_range'_1.1 hx
      refine (create_flag o 2 x).trans ?_
      rw [if_pos hx']
      simp [hf]
    · refine (create_flag o 2 x).trans ?_
      rw [if_neg (by omega)]

/-- What `default_init` makes of an object: all its parameters are new, those of the functions and of
the weights are trainable as asked, the convolutions are not, and the registry knows the functions. -/
theorem defaultInit_spec (o : GradCCA) (gens pers : List Nat) : ∃ o',
    o.defaultInit gens pers = .ok o' ∧
    o'.genesis.map List.length = gens ∧ o'.persistence.map List.length = pers ∧
    (∀ f ∈ o'.genesis, ∀ x ∈ f, o'.flag x = true ∧ o.next ≤ x ∧ x < o'.next) ∧
    (∀ f ∈ o'.persistence, ∀ x ∈ f, o'.flag x = true ∧ o.next ≤ x ∧ x < o'.next) ∧
    (∀ x ∈ o'.weights, o'.flag x = (o.useGrad || !o.functional) ∧ o.next ≤ x ∧ x < o'.next) ∧
    (∀ x ∈ o'.idLayer ++ o'.nbLayer, o'.flag x = false ∧ o.next ≤ x ∧ x < o'.next) ∧
    (∀ name p, Spec.current o' name = some p → o'.registry name = some p ∧ name ∈ o'.named) ∧
    (∀ name, Spec.current o' name = none → o'.registry name = o.registry name ∧
      (name ∈ o'.named ↔ name ∈ o.named)) ∧
    o'.useGrad = o.useGrad ∧ o'.functional = o.functional ∧ o.next ≤ o'.next := by
  set a : GradCCA := { o with genesis := [], persistence := [] } with ha
  set b : GradCCA := { a.create 1 with
    idLayer := newIds a 1, flag := setFlags (newIds a 1) false (a.create 1).flag } with hb
  set c : GradCCA := { b.create 1 with
    nbLayer := newIds b 1, flag := setFlags (newIds b 1) false (b.create 1).flag } with hc
  obtain ⟨d, hd, d1, d2, d3, d4, d5, d6, d7, d8, d9, d10, d11, d12⟩ := initWeights_eq c
  obtain ⟨e1, e2, e3, e4, e5, e6, e7, e8, e9, e10, e11⟩ := addGenesis_fold gens d
  set e := gens.foldl GradCCA.addGenesis d with he
  obtain ⟨f1, f2, f3, f4, f5, f6, f7, f8, f9, f10, f11⟩ := addPersistence_fold pers e
  set f := pers.foldl GradCCA.addPersistence e with hf
  obtain ⟨r1, r2, r3, r4, r5, r6, r7, r8, r9, r10, r11⟩ := register_fold f.pairs f
  obtain ⟨i1, i2, -⟩ := include_registers f
  have hrun : o.defaultInit gens pers = .ok f.includeParameters := by
    unfold GradCCA.defaultInit
    simp only [← ha, initId_eq, ← hb, initNb_eq, ← hc, hd, Bind.bind, Except.bind, pure, Except.pure,
      ← he, ← hf]
  have hcn : c.next = o.next + 2 := rfl
  have hg : f.genesis = Spec.blocks d.next gens := by rw [f4, e1, d5]; rfl
  have hp : f.persistence = Spec.blocks e.next pers := by rw [f1, e4, d6]; rfl
  have hdn : c.next ≤ d.next := by rw [d2]; omega
  have hcur : ∀ name, Spec.current f.includeParameters name = Spec.current f name := by
    intro name
    cases name with
    | gen i j => show (f.includeParameters.genesis[i]?).bind _ = _; rw [show
        f.includeParameters.genesis = f.genesis from r3]; rfl
    | per i j => show (f.includeParameters.persistence[i]?).bind _ = _; rw [show
        f.includeParameters.persistence = f.persistence from r4]; rfl
  have hnext : f.includeParameters.next = d.next + gens.sum + pers.sum := by
    rw [show f.includeParameters.next = f.next from r10, f2, e2]
  have hflag : ∀ x, f.includeParameters.flag x = if d.next ≤ x ∧ x < d.next + gens.sum + pers.sum
      then true else d.flag x := by
    intro x
    rw [show f.includeParameters.flag = f.flag from r8, f3, e3, e2]
    split_ifs <;> first | rfl | omega
  refine ⟨_, hrun, ?_, ?_, ?_, ?_, ?_, ?_, ?_, ?_, ?_, ?_, ?_⟩
  · rw [show f.includeParameters.genesis = f.genesis from r3, hg, blocks_lengths]
  · rw [show f.includeParameters.persistence = f.persistence from r4, hp, blocks_lengths]
  · intro l hl x hx
    rw [show f.includeParameters.genesis = f.genesis from r3, hg] at hl
    have := mem_blocks hl hx
    rw [hflag, if_pos (by omega), hnext]
    exact ⟨rfl, by omega, by omega⟩
  · intro l hl x hx
    rw [show f.includeParameters.persistence = f.persistence from r4, hp] at hl
    have := mem_blocks hl hx
    rw [e2] at this
    rw [hflag, if_pos (by omega), hnext]
    exact ⟨rfl, by omega, by omega⟩
  · intro x hx
    rw [show f.includeParameters.weights = f.weights from r5, f5, e5] at hx
    have h3 := d3 x hx
    rw [d1] at hx
    have := List.mem_range'_1.1 hx
    rw [hflag, if_neg (by rw [d2]; omega), hnext, h3]
    exact ⟨rfl, by omega, by omega⟩
  · intro x hx
    rw [show f.includeParameters.idLayer = f.idLayer from r6, f6, e6, d7,
      show f.includeParameters.nbLayer = f.nbLayer from r7, f7, e7, d8] at hx
    have hx' : x = o.next ∨ x = o.next + 1 := by
      rcases List.mem_append.1 hx with h | h
      · left
        have : x ∈ List.range' o.next 1 := h
        have := List.mem_range'_1.1 this
        omega
      · right
        have : x ∈ List.range' (o.next + 1) 1 := h
        have := List.mem_range'_1.1 this
        omega
    rw [hflag, if_neg (by omega), hnext, d4 x (by omega)]
    refine ⟨?_, by omega, by omega⟩
    have hcf : c.flag x = setFlags (List.range' (o.next + 1) 1) false
      (setFlags (List.range' (o.next + 1) 1) true (setFlags (List.range' o.next 1) false
        (setFlags (List.range' o.next 1) true o.flag))) x := rfl
    rw [hcf]
    rcases hx' with rfl | rfl <;> simp [setFlags]
  · intro name p h
    exact i1 name p ((hcur name).symm.trans h)
  · intro name h
    obtain ⟨h1, h2⟩ := i2 name ((hcur name).symm.trans h)
    rw [h1, h2, f8, e8, d9, f9, e9, d10]
    exact ⟨rfl, Iff.rfl⟩
  · rw [show f.includeParameters.useGrad = f.useGrad from r9, f10, e10, d11]
    rfl
  · rw [show f.includeParameters.functional = f.functional from r11, f11, e11, d12]
    rfl
  · omega

/-- The object belongs to the registry's names exactly through its functions. -/
def Spec.InSync (o : GradCCA) : Prop :=
  ∀ name p, Spec.current o name = some p → o.registry name = some p ∧ name ∈ o.named

/-- C112: what `CCA(use_grad=True)` gives: the parameters of the functions and the weights require
gradients, the two convolutions do not, and the names of the module are those of its functions. -/
theorem construct_grad (o : GradCCA) (functional : Bool) (gens pers : List Nat) : ∃ o',
    o.init true functional gens pers none = .ok o' ∧ o'.useGrad = true ∧
    (∀ f ∈ o'.genesis ++ o'.persistence, ∀ x ∈ f, o'.flag x = true) ∧
    (∀ x ∈ o'.weights, o'.flag x = true) ∧
    (∀ x ∈ o'.idLayer ++ o'.nbLayer, o'.flag x = false) ∧
    o'.genesis.map List.length = gens ∧ o'.persistence.map List.length = pers ∧
    ∀ name p, (name ∈ o'.named ∧ o'.registry name = some p) ↔ Spec.current o' name = some p := by
  obtain ⟨o', h, h1, h2, h3, h4, h5, h6, h7, h8, h9, h10, -⟩ :=
    defaultInit_spec (o.blank true functional) gens pers
  have hu : o'.useGrad = true := h9
  refine ⟨o', ?_, hu, ?_, ?_, ?_, h1, h2, ?_⟩
  · unfold GradCCA.init
    simp only [h, Bind.bind, Except.bind, pure, Except.pure, hu, if_true]
  · intro f hf x hx
    rcases List.mem_append.1 hf with hf | hf
    · exact (h3 f hf x hx).1
    · exact (h4 f hf x hx).1
  · intro x hx
    exact (h5 x hx).1
  · intro x hx
    exact (h6 x hx).1
  · intro name p
    constructor
    · rintro ⟨hn, hr⟩
      cases hc : Spec.current o' name with
      | none =>
        have := (h8 name hc).2.1 hn
        cases this
      | some q =>
        have := (h7 name q hc).1
        rw [hr] at this
        exact this.symm
    · exact fun h => (h7 name p h).symm

/-- C112: without `use_grad` (the default) a new object has no parameter that requires gradients. -/
theorem construct_quiet (o : GradCCA) (functional : Bool) (gens pers : List Nat) : ∃ o',
    o.init false functional gens pers none = .ok o' ∧ Spec.Untrained o' := by
  obtain ⟨o', h, -, -, -, -, -, -, -, -, h9, -⟩ :=
    defaultInit_spec (o.blank false functional) gens pers
  have hu : o'.useGrad = false := h9
  refine ⟨o'.noGrad, ?_, (noGrad_quiet o').1⟩
  unfold GradCCA.init
  simp only [h, Bind.bind, Except.bind, pure, Except.pure, hu]
  rfl

/-! ## Loading a config -/

theorem construct_spec (o : GradCCA) (g functional : Bool) (gens pers : List Nat) : ∃ o',
    o.construct g functional gens pers = .ok o' ∧ o.next ≤ o'.next ∧
    (∀ name p, (name ∈ o'.named ∧ o'.registry name = some p) ↔ Spec.current o' name = some p) ∧
    (∀ name, name ∈ o'.named → ∃ p, Spec.current o' name = some p) ∧
    o'.genesis.map List.length = gens ∧ o'.persistence.map List.length = pers ∧
    ∀ name p, o'.registry name = some p → p < o'.next := by
  obtain ⟨o', h, h1, h2, h3, h4, h5, h6, h7, h8, h9, h10, h11⟩ :=
    defaultInit_spec (o.blank g functional) gens pers
  have hreg : ∀ name p, (name ∈ o'.named ∧ o'.registry name = some p) ↔
      Spec.current o' name = some p := by
    intro name p
    constructor
    · rintro ⟨hn, hr⟩
      cases hc : Spec.current o' name with
      | none =>
        have := (h8 name hc).2.1 hn
        cases this
      | some q =>
        have := (h7 name q hc).1
        rw [hr] at this
        exact this.symm
    · exact fun h => (h7 name p h).symm
  have hnone : ∀ name, name ∉ o'.named → o'.registry name = none := by
    intro name hn
    cases hc : Spec.current o' name with
    | none => exact (h8 name hc).1
    | some q => exact absurd (h7 name q hc).2 hn
  have hsome : ∀ name, name ∈ o'.named → ∃ p, Spec.current o' name = some p := by
    intro name hn
    cases hc : Spec.current o' name with
    | none => cases (h8 name hc).2.1 hn
    | some q => exact ⟨q, rfl⟩
  have hbound : ∀ name p, o'.registry name = some p → p < o'.next := by
    intro name p hr
    have hn : name ∈ o'.named := by
      by_contra hn
      rw [hnone name hn] at hr
      cases hr
    have hc := (hreg name p).1 ⟨hn, hr⟩
    cases name with
    | gen i j =>
      obtain ⟨f, hf, hp⟩ := Option.bind_eq_some_iff.1 hc
      exact (h3 f (List.mem_of_getElem? hf) p (List.mem_of_getElem? hp)).2.2
    | per i j =>
      obtain ⟨f, hf, hp⟩ := Option.bind_eq_some_iff.1 hc
      exact (h4 f (List.mem_of_getElem? hf) p (List.mem_of_getElem? hp)).2.2
  refine ⟨if o'.useGrad then o' else o'.noGrad, ?_, ?_⟩
  · unfold GradCCA.construct
    simp only [h, Bind.bind, Except.bind, pure, Except.pure]
  · split
    · exact ⟨h11, hreg, hsome, h1, h2, hbound⟩
    · exact ⟨h11, hreg, hsome, h1, h2, hbound⟩

/-- The config's part of `load_config`. -/
theorem load_tail (o : GradCCA) (gen per : Nat) : ∃ o',
    o.loadConfig none gen per = .ok o' ∧ Spec.Untrained o' ∧
    o'.genesis.map List.length = [gen] ∧ o'.persistence.map List.length = [per] ∧
    (∀ f ∈ o'.genesis ++ o'.persistence, ∀ x ∈ f, o.next ≤ x) ∧
    Spec.InSync o' ∧
    ∀ name, Spec.current o' name = none → o'.registry name = o.registry name ∧
      (name ∈ o'.named ↔ name ∈ o.named) := by
  set a : GradCCA := { o with genesis := [], persistence := [] } with ha
  set b : GradCCA := { a.create 1 with
    idLayer := newIds a 1, flag := setFlags (newIds a 1) false (a.create 1).flag } with hb
  set c : GradCCA := { b.create 1 with
    nbLayer := newIds b 1, flag := setFlags (newIds b 1) false (b.create 1).flag } with hc
  set d : GradCCA := { c.noGrad.create 1 with
    nbLayer := newIds c.noGrad 1
    flag := setFlags (newIds c.noGrad 1) false (c.noGrad.create 1).flag } with hd
  obtain ⟨e, he, -, -, -, -, e5, e6, -, -, e9, e10, -, -⟩ :=
    initWeights_eq ((d.addGenesis gen).addPersistence per)
  obtain ⟨-, -, r3, r4, -⟩ := register_fold e.pairs e
  obtain ⟨i1, i2, -⟩ := include_registers e
  have hrun : o.loadConfig none gen per = .ok e.includeParameters.noGrad := by
    unfold GradCCA.loadConfig
    simp only [Bind.bind, Except.bind, pure, Except.pure, ← ha, initId_eq, ← hb,
      GradCCA.setKernelRadius, initNb_eq, ← hc, toDevice_eq, ← hd, he]
  have hg : e.genesis = [List.range' (o.next + 3) gen] := by rw [e5]; rfl
  have hp : e.persistence = [List.range' (o.next + 3 + gen) per] := by rw [e6]; rfl
  have hcur : ∀ name, Spec.current e.includeParameters.noGrad name = Spec.current e name := by
    intro name
    cases name with
    | gen i j => show (e.includeParameters.genesis[i]?).bind _ = _; rw [show
        e.includeParameters.genesis = e.genesis from r3]; rfl
    | per i j => show (e.includeParameters.persistence[i]?).bind _ = _; rw [show
        e.includeParameters.persistence = e.persistence from r4]; rfl
  refine ⟨_, hrun, (noGrad_quiet _).1, ?_, ?_, ?_, ?_, ?_⟩
  · show e.includeParameters.genesis.map _ = _
    rw [show e.includeParameters.genesis = e.genesis from r3, hg]; simp
  · show e.includeParameters.persistence.map _ = _
    rw [show e.includeParameters.persistence = e.persistence from r4, hp]; simp
  · intro f hf x hx
    have hf' : f ∈ e.genesis ++ e.persistence := by
      have h : f ∈ e.includeParameters.genesis ++ e.includeParameters.persistence := hf
      rwa [show e.includeParameters.genesis = e.genesis from r3,
        show e.includeParameters.persistence = e.persistence from r4] at h
    rw [hg, hp] at hf'
    simp only [List.singleton_append, List.mem_cons, List.not_mem_nil, or_false] at hf'
    rcases hf' with rfl | rfl
    · have := List.mem_range'_1.1 hx; omega
    · have := List.mem_range'_1.1 hx; omega
  · intro name p h
    exact i1 name p ((hcur name).symm.trans h)
  · intro name h
    obtain ⟨h1, h2⟩ := i2 name ((hcur name).symm.trans h)
    refine ⟨?_, ?_⟩
    · refine h1.trans ?_
      rw [e9]; rfl
    · refine h2.trans ?_
      rw [e10]; exact Iff.rfl

theorem loadConfig_eq (o : GradCCA) (instant) (gen per : Nat) :
    o.loadConfig instant gen per = (do
      let o ← match instant with
        | none => pure o
        | some (g, f, gens, pers) => o.construct g f gens pers
      o.loadConfig none gen per) := by
  cases instant with
  | none => rfl
  | some x =>
    show _ = (o.construct x.1 x.2.1 x.2.2.1 x.2.2.2 >>= fun o => o.loadConfig none gen per)
    rfl

/-- C112: `load_config` never writes to a parameter that requires gradients, leaves none, and
registers the parameters of the new functions, whether or not it re-initialises the object. -/
theorem load_quiet (o : GradCCA) (instant : Option (Bool × Bool × List Nat × List Nat))
    (gen per : Nat) : ∃ o', o.loadConfig instant gen per = .ok o' ∧ Spec.Untrained o' ∧
      Spec.InSync o' ∧ o'.genesis.map List.length = [gen] ∧
      o'.persistence.map List.length = [per] := by
  rw [loadConfig_eq]
  cases instant with
  | none =>
    obtain ⟨o', h1, h2, h3, h4, -, h5, -⟩ := load_tail o gen per
    exact ⟨o', h1, h2, h5, h3, h4⟩
  | some x =>
    obtain ⟨m, hm, -⟩ := construct_spec o x.1 x.2.1 x.2.2.1 x.2.2.2
    obtain ⟨o', h1, h2, h3, h4, -, h5, -⟩ := load_tail m gen per
    refine ⟨o', ?_, h2, h5, h3, h4⟩
    show (o.construct x.1 x.2.1 x.2.2.1 x.2.2.2 >>= fun o => o.loadConfig none gen per) = _
    rw [hm]
    exact h1

/-- C112, exception: an object made from a config has no gradients even if they were asked for. -/
theorem use_grad_with_config_refuted (o : GradCCA) (functional : Bool) (gens pers : List Nat)
    (config) : ∃ o', o.init true functional gens pers (some config) = .ok o' ∧ Spec.Untrained o' := by
  obtain ⟨m, hm, -⟩ := defaultInit_spec (o.blank true functional) gens pers
  obtain ⟨o', h1, h2, -⟩ := load_quiet m config.1 config.2.1 config.2.2
  refine ⟨o'.noGrad, ?_, (noGrad_quiet o').1⟩
  unfold GradCCA.init
  simp only [hm, Bind.bind, Except.bind, pure, Except.pure, h1, h2.1]
  rfl

/-- C112, exception: names of discarded functions stay in the module.  After loading a config with
`instant_kwargs`, the registered names are those of the new functions and those of the functions the
re-initialisation drew; a name of the second kind only refers to a parameter no function uses. -/
theorem load_leaves_stale (o : GradCCA) (g f : Bool) (gens pers : List Nat) (gen per : Nat) :
    ∃ o', o.loadConfig (some (g, f, gens, pers)) gen per = .ok o' ∧
      (∀ i j, PName.gen i j ∈ o'.named ↔ (i = 0 ∧ j < gen) ∨ ∃ n, gens[i]? = some n ∧ j < n) ∧
      (∀ i j, PName.per i j ∈ o'.named ↔ (i = 0 ∧ j < per) ∨ ∃ n, pers[i]? = some n ∧ j < n) ∧
      ∀ name p, Spec.current o' name = none → name ∈ o'.named → o'.registry name = some p →
        ∀ h ∈ o'.genesis ++ o'.persistence, p ∉ h := by
  obtain ⟨m, hm, -, m1, m2, m3, m4, m5⟩ := construct_spec o g f gens pers
  obtain ⟨o', h1, h2, h3, h4, h5, h6, h7⟩ := load_tail m gen per
  have hcurrent : ∀ (fs : List (List Nat)) (ns : List Nat), fs.map List.length = ns → ∀ i j : Nat,
      (∃ p, (fs[i]?).bind (fun l : List Nat => l[j]?) = some p) ↔ ∃ n, ns[i]? = some n ∧ j < n := by
    rintro fs ns rfl i j
    rw [List.getElem?_map]
    cases fs[i]? with
    | none => simp
    | some l =>
      simp only [Option.bind_some, Option.map_some, Option.some.injEq, exists_eq_left']
      constructor
      · rintro ⟨p, hp⟩; exact (List.getElem?_eq_some_iff.1 hp).1
      · intro h; exact ⟨l[j], List.getElem?_eq_getElem h⟩
  have hone : ∀ (n i j : Nat), (∃ k, [n][i]? = some k ∧ j < k) ↔ i = 0 ∧ j < n := by
    intro n i j
    cases i with
    | zero => simp
    | succ i => simp
  have hnamed : ∀ name, name ∈ o'.named ↔ (∃ p, Spec.current o' name = some p) ∨
      ∃ p, Spec.current m name = some p := by
    intro name
    cases hc : Spec.current o' name with
    | some p => exact ⟨fun _ => .inl ⟨p, rfl⟩, fun _ => (h6 name p hc).2⟩
    | none =>
      rw [(h7 name hc).2]
      constructor
      · exact fun hn => .inr (m2 name hn)
      · rintro (⟨p, hp⟩ | ⟨p, hp⟩)
        · cases hp
        · exact ((m1 name p).2 hp).1
  refine ⟨o', ?_, fun i j => ?_, fun i j => ?_, fun name p hc hn hr h hh hp => ?_⟩
  · rw [loadConfig_eq]
    show (o.construct g f gens pers >>= fun o => o.loadConfig none gen per) = _
    rw [hm]
    exact h1
  · rw [hnamed, ← hone]
    exact or_congr (hcurrent _ _ h3 i j) (hcurrent _ _ m3 i j)
  · rw [hnamed, ← hone]
    exact or_congr (hcurrent _ _ h4 i j) (hcurrent _ _ m4 i j)
  · have hb := h5 h hh p hp
    rw [(h7 name hc).1] at hr
    have := m5 name p hr
    omega

/-! ## Any sequence of calls -/

/-- The public operations on an existing object that may touch gradients. -/
inductive Spec.GradOp where
  | noGrad
  | toDevice
  | setParams
  | leniaSetParams
  | setKernelRadius
  | loadConfig (instant : Option (Bool × Bool × List Nat × List Nat)) (gen per : Nat)

/-- Call one operation. -/
def Spec.GradOp.call : Spec.GradOp → GradCCA → Except PyErr GradCCA
  | .noGrad, o => .ok o.noGrad
  | .toDevice, o => o.toDevice
  | .setParams, o => o.setParams
  | .leniaSetParams, o => o.leniaSetParams
  | .setKernelRadius, o => o.setKernelRadius
  | .loadConfig i g p, o => o.loadConfig i g p

theorem inSync_of_same {o o' : GradCCA} (h : Spec.SameParts o o') (hs : Spec.InSync o) :
    Spec.InSync o' := by
  intro name p hp
  rw [h.registry, h.named]
  refine hs name p ?_
  cases name with
  | gen i j => simpa only [Spec.current, h.genesis] using hp
  | per i j => simpa only [Spec.current, h.persistence] using hp

/-- C112: no sequence of calls ever writes in place to a parameter that requires gradients; after
the first call nothing requires gradients any more, and no later call brings them back; the names
of the parameters in use always refer to them. -/
theorem calls_quiet (ops : List Spec.GradOp) (hne : ops ≠ []) (o : GradCCA) :
    ∃ o', ops.foldlM (fun o op => op.call o) o = .ok o' ∧ Spec.Untrained o' ∧
      (Spec.InSync o → Spec.InSync o') := by
  induction ops generalizing o with
  | nil => exact absurd rfl hne
  | cons op ops ih =>
    have h1 : ∃ o', op.call o = .ok o' ∧ Spec.Untrained o' ∧ (Spec.InSync o → Spec.InSync o') := by
      cases op with
      | noGrad => exact ⟨_, rfl, (noGrad_quiet o).1, inSync_of_same (noGrad_quiet o).2.1⟩
      | toDevice =>
        obtain ⟨o', h1, h2, h3, -⟩ := toDevice_quiet o
        exact ⟨o', h1, h2, inSync_of_same h3⟩
      | setParams =>
        obtain ⟨o', h1, h2, h3⟩ := setParams_quiet o
        exact ⟨o', h1, h2, inSync_of_same h3⟩
      | leniaSetParams =>
        obtain ⟨o', h1, h2, h3⟩ := (lenia_setParams_quiet o).1
        exact ⟨o', h1, h2, inSync_of_same h3⟩
      | setKernelRadius =>
        obtain ⟨o', h1, h2, h3⟩ := (lenia_setParams_quiet o).2
        exact ⟨o', h1, h2, inSync_of_same h3⟩
      | loadConfig i g p =>
        obtain ⟨o', h1, h2, h3, -⟩ := load_quiet o i g p
        exact ⟨o', h1, h2, fun _ => h3⟩
    obtain ⟨o₁, h1, h2, h3⟩ := h1
    rw [List.foldlM_cons, h1]
    cases ops with
    | nil => exact ⟨o₁, rfl, h2, h3⟩
    | cons op' ops =>
      obtain ⟨o', h4, h5, h6⟩ := ih (by simp) o₁
      exact ⟨o', h4, h5, fun h => h6 (h3 h)⟩

/-- An empty module in a world without parameters. -/
def Witness.noModule : GradCCA :=
  ⟨false, true, [], [], [], [], [], fun _ => none, [], fun _ => false, 0⟩

/-- `CCA(use_grad=True)` with a Gaussian and a polynomial: parameters 3 to 5 and the weight 2 can be
trained; after `set_params` nothing can. -/
example : ∃ o o', Witness.noModule.init true true [2] [1] none = .ok o ∧
    o.genesis = [[3, 4]] ∧ o.persistence = [[5]] ∧
    [0, 1, 2, 3, 4, 5].map o.flag = [false, false, true, true, true, true] ∧
    o.registry (.gen 0 1) = some 4 ∧ o.setParams = .ok o' ∧
    [0, 1, 2, 3, 4, 5].map o'.flag = [false, false, false, false, false, false] :=
  ⟨_, _, rfl, rfl, rfl, rfl, rfl, rfl, rfl⟩

/-- A config with `SmoothIntervals` (no parameters) leaves four names of discarded Gaussians. -/
example : ∃ o', Witness.noModule.loadConfig (some (false, true, [2], [2])) 0 0 = .ok o' ∧
    o'.named = [.gen 0 0, .gen 0 1, .per 0 0, .per 0 1] ∧ o'.genesis = [[]] ∧
    o'.persistence = [[]] :=
  ⟨_, rfl, rfl, rfl, rfl⟩

/-! ## Neural automata -/

/-- C112: asking an `NCA` for gradients when it is made has no effect on its weights; `yes_grad`
switches on all of them and `no_grad`, `to_device` and `set_params` all of them off; `set_params`
never meets a weight that requires gradients; when training begins every weight requires them. -/
theorem nca_switches (o : GradNCA) (useGrad kernel : Bool) (n : Nat) :
    (GradNCA.construct useGrad n).flags = List.replicate n false ∧
    (GradNCA.construct useGrad n).useGrad = useGrad ∧
    ((∀ b ∈ o.yesGrad.flags, b = true) ∧ o.yesGrad.useGrad = true ∧
      o.yesGrad.flags.length = o.flags.length) ∧
    ((∀ b ∈ o.noGrad.flags, b = false) ∧ o.noGrad.useGrad = false ∧
      o.noGrad.flags.length = o.flags.length) ∧
    o.toDevice = o.noGrad ∧ o.setParams kernel = .ok o.noGrad ∧
    GradNCA.forTraining n = ⟨true, List.replicate n true⟩ := by
  refine ⟨rfl, rfl, ⟨?_, rfl, by simp [GradNCA.yesGrad]⟩, ⟨?_, rfl, by simp [GradNCA.noGrad]⟩, rfl,
    ?_, ?_⟩
  · simp [GradNCA.yesGrad]
  · simp [GradNCA.noGrad]
  · unfold GradNCA.setParams
    have h : o.noGrad.flags.any id = false := by simp [GradNCA.noGrad]
    dsimp only
    rw [h]
    cases kernel
    · rfl
    · simp [GradNCA.toDevice, GradNCA.noGrad]
  · simp [GradNCA.forTraining, GradNCA.construct, GradNCA.initWeights, GradNCA.yesGrad,
      GradNCA.toDevice, GradNCA.noGrad]

example : (GradNCA.construct true 3).flags = [false, false, false] ∧
    (GradNCA.construct true 3).yesGrad.flags = [true, true, true] := ⟨rfl, rfl⟩

/-! ## Gray-Scott -/

section rxn

variable {K : Type}

/-- The rates of a `RxnDfn` do not require gradients. -/
def Spec.Constant (o : GradRxn K) : Prop := o.ratesGrad = false

/-- C112: the rates a `RxnDfn` computes with never require gradients, whatever is called; what the
module registers are copies: after `set_params` they still hold the rates before it, and only
`load_config` brings them up to date. -/
theorem rxn_registered_copies (o : GradRxn K) (h : Spec.Constant o) (v : List K) :
    Spec.Constant o.includeParameters ∧ Spec.Constant o.noGrad ∧ Spec.Constant (o.setParams v) ∧
    Spec.Constant o.toDevice ∧ Spec.Constant (o.loadConfig v) ∧
    (o.setParams v).rates = v.take 4 ∧ (o.setParams v).registered = o.registered ∧
    (o.setParams v).useGrad = false ∧ (o.setParams v).registeredGrad = false ∧
    (o.loadConfig v).registered = some (o.loadConfig v).rates ∧
    (o.loadConfig v).rates = v.take 4 ∧ (o.loadConfig v).registeredGrad = true ∧
    o.toDevice.registeredGrad = false ∧ o.toDevice.rates = o.rates :=
  ⟨h, h, rfl, h, rfl, rfl, rfl, rfl, rfl, rfl, rfl, rfl, rfl, rfl⟩

/-- C112, exception: after `set_params` the registered parameters are not the rates in use. -/
theorem rxn_registry_stale_refuted : ∃ o : GradRxn Int, Spec.Constant o ∧
    o.registered = some o.rates ∧ (o.setParams [5, 6, 7, 8]).registered ≠
      some (o.setParams [5, 6, 7, 8]).rates :=
  ⟨⟨false, [1, 2, 3, 4], false, some [1, 2, 3, 4], true⟩, rfl, rfl, by decide⟩

end rxn

end Yuca
