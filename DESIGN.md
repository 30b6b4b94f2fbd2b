# Formal model of yuca: design

`/repo` is read as text; nothing of it is executed.  The Lean model lives in
`lean/Verif/`:

* `Verif/Model/*.lean`: definitions that mirror the Python functions branch by
  branch.  Each definition cites the file and lines it mirrors and says what was
  simplified.
* `Verif/Spec/*.lean`: the specifications shared by several files (shifting a torus,
  the exact Life rule, simulated time).  Specifications used in one place only are in
  the namespace `Spec` of the `Props` file that uses them.  Neither uses the model's
  helpers.
* `Verif/Lemmas/*.lean`: helper lemmas.
* `Verif/Props/*.lean`: the property theorems, one file per area, next to `example`s
  that exhibit non-trivial instances of their hypotheses.

Theorem names: `*_refuted` is the negation of a claim one would expect, with a concrete
witness; the statement in `properties.jsonl` then says for which inputs the claim fails.
`*_partial` would be a weakened claim; there is none at present.

## Modelling conventions

* **Python exceptions are values.**  Functions that can raise return
  `Except PyErr _`.
* **Arithmetic.**  Facts that should survive floating point (ranges,
  equivariance, locality, `get_frame` = `forward`, bookkeeping) are proved over an
  arbitrary carrier `α` with *lawless* operations (class `Arith`: `add`, `mul`,
  `sub`, `lt`, ... with no axioms).  Any rounding mode, `float16/32/64`, NaN and
  infinities are instances, as long as the operation is deterministic and the
  summation order of a convolution is the same for every output cell.  Analytic
  facts (Gaussians, kernel sums, Gray-Scott, Life, step formulas) are proved over exact
  reals, and say so; rounding is not modelled there.  Where the last bit decides
  (lengths of `np.arange`, side lengths of bite masks) `Model/Float.lean` defines
  binary64 rounding to nearest even on rationals as a function.
* **Tensors.**  A universe `(N, C, H, W)` is a function
  `Fin N → Fin C → Fin H → Fin W → α`.  Shape errors that a typed tensor cannot
  express are modelled separately on shapes.
* **Randomness.**  Random draws are explicit arguments, quantified over.
* **File systems** are functions from path to optional content; crash points are
  prefixes of the list of primitive file operations.
* **Non-termination** is fuel: a call diverges if it runs out of every amount of fuel.
* **Concurrency** (MPI) is a small-step semantics with one FIFO channel per ordered pair
  of processes; theorems quantify over every schedule.

## Trusted base

* Lean 4.33.0's kernel and Mathlib's definitions (reals, `Real.exp`, matrices).
* Axioms: every theorem depends at most on `propext`, `Classical.choice`,
  `Quot.sound`.  No own axioms, no `sorry`, no `native_decide`/`bv_decide`.
* The reading of the Python source: that the model's definitions mirror the cited
  lines, and the semantics of numpy/torch calls assumed in the comments
  (`torch.clamp`, `nn.Conv2d` with `groups`/`padding_mode`, `np.argsort`, slicing,
  `str.split`, ...).  In particular
  * `np.save`/`np.load` and `torch` parameter copies are exact round trips;
  * `np.random.multivariate_normal(mean, cov)` returns the mean plus a vector in the
    range of `cov` (C68);
  * MPI point-to-point messages between two processes arrive, once, in order;
  * `os.system`/`subprocess` side effects other than those named do not happen.
* **Modelled**: the step functions of all automata, kernels, activations,
  parameter flattening, config load/save, Librarian, CMAES, wrappers, frame
  writing, masks, analysis counters, CPPN shapes and ranges, evolve dispatch,
  clone's bookkeeping, step predictor layer indexing.
* **Not modelled**: autograd and optimisers (training results), GPU placement,
  matplotlib/bokeh rendering, PNG/GIF encodings, pickling formats, wall-clock
  file names, the notebooks, `float16` casts (covered only by the lawless
  arithmetic reading: a cast is one more rounding).

## Testing the theorems against wrong programs

`seeded/LOG.jsonl` records one line per wrong program: a realistic bug is put into one
model definition in a scratch copy, everything is rebuilt, and the theorems that no
longer prove are listed.  `tightened` names theorems that were added or strengthened
because an edit survived.  Edits that do not change the meaning, or change something no
property speaks of, are marked as such.

## Properties

### C01 Every step leaves cells in [0,1]

Step functions over lawless `Arith`; clamp case analysis, every automaton class.  Status: proved; `Props/`: Range.lean.

Proved: `base_range`, `cca_range`, `lenia_range`, `nca_range`, `randomStep_range`, `meta_range`, `code_range`, `rxn_range`.
Note: Any rounding arithmetic; only the comparisons of 0 and 1 are assumed.

### C02 Torus translation equivariance

Convolution with explicit padding index map; shift commutes with the map; induction on steps; counterexample for zero padding.  Status: proved; `Props/`: Equivariance.lean, Everywhere.lean, Onward.lean.

Proved: `cca_roll`, `lenia_roll`, `base_roll`, `rxn_roll`, `nca_roll`, `code_roll`, `randomStep_roll`, `meta_roll`, `randomSteps_roll`, `codeSteps_roll`.
Refuted by witness (the statement in `properties.jsonl` names the exception): `roll_zeros_refuted`.
Note: Bit-for-bit, any rounding; failure with zero padding by witness.

### C03 Locality and speed limit

Dependence ball of a convolution; induction on steps.  Status: proved; `Props/`: Everywhere.lean, Locality.lean.

Proved: `cca_local`, `lenia_local`, `rxn_local`, `nca_local`, `base_local`, `randomSteps_local`, `meta_local`.
Refuted by witness (the statement in `properties.jsonl` names the exception): `code_local_refuted`.
Note: Holds for the fixed-step automata; CODE refuted by a witness.

### C04 get_frame(mode=0) predicts forward

Both functions modelled; equality below 4 channels, witness at 4.  Status: proved; `Props/`: Structure.lean.

Proved: `cca_frame_eq_forward`, `cca_frame0_eq_forward`, `lenia_frame_eq_forward`, `nca_frame_eq_forward`, `rxn_frame_eq_forward`.
Refuted by witness (the statement in `properties.jsonl` names the exception): `cca_frame_four_refuted`, `meta_frame_refuted`.

### C05 Simulated time bookkeeping

State machine of calls; invariant by induction on call histories.  Status: proved; `Props/`: Structure.lean.

Proved: `clock_time`, `cca_time`, `lenia_time`, `nca_time`, `rxn_time`, `randomStep_time`, `code_time`, `cca_time_const`, `meta_no_time`.

### C06 Alive mask semantics

Alive mask pointwise; spec in terms of cells.  Status: proved; `Props/`: Structure.lean.

Proved: `mask_cell`, `mask_real`, `mask_idem`, `mask_small`.

### C07 Batch members evolve independently

Member slicing commutes with step; CODE counterexample.  Status: proved; `Props/`: Equivariance.lean, Everywhere.lean.

Proved: `cca_member`, `lenia_member`, `rxn_member`, `nca_member`, `base_member`, `randomSteps_member`, `meta_member`, `meta_member_reset`.
Refuted by witness (the statement in `properties.jsonl` names the exception): `code_member_refuted`, `code_member_cell_refuted`.

### C08 Identity layer copies the state

Grouped convolution with unit impulse; index arithmetic for groups.  Status: proved; `Props/`: Structure.lean.

Proved: `identity_copies`, `identity_mixes`.
Note: Exact arithmetic, every padding mode.

### C09 Lenia is the genesis = persistence special case

Reals; ring identity and induction.  Status: proved; `Props/`: Dynamics.lean.

Proved: `lenia_is_cca`.
Note: Exact arithmetic.

### C10 A dead universe stays dead

Reals; monotone clamp; induction on steps.  Status: proved; `Props/`: Dynamics.lean.

Proved: `dead_fixed_iff`, `cca_dead_stays`, `lenia_dead_stays`, `cca_dead_revives`.
Note: Functional (linear) weight layer, the only one with growth functions.

### C11 Early stopping of the halting rollout is lossless

Loop with break vs full loop; induction; counterexample automaton.  Status: proved; `Props/`: Wrappers.lean.

Proved: `rollout_lossless`, `cca_rollout_lossless`.
Refuted by witness (the statement in `properties.jsonl` names the exception): `rollout_lossless_refuted`.
Note: Exact arithmetic; the exception by a witness.

### C12 A step changes a cell by at most dt

Reals; clamp is 1-Lipschitz, convex combination bound.  Status: proved; `Props/`: Dynamics.lean.

Proved: `cca_step_bound`, `cca_drift_bound`, `nca_step_bound`.

### C13 Homogeneous states stay homogeneous

Corollary of translation equivariance plus recurrence over reals.  Status: proved; `Props/`: Onward.lean, Symmetry.lean.

Proved: `cca_homogeneous`, `lenia_homogeneous`, `rxn_homogeneous`, `nca_homogeneous`, `randomStep_homogeneous`, `code_homogeneous`, `meta_homogeneous`, `cca_mean_field`, `randomSteps_homogeneous`, `codeSteps_homogeneous`.

### C14 Isotropy: rotation and reflection equivariance

Reals; reindexing of finite sums by the dihedral group.  Status: proved; `Props/`: Gliding.lean, Onward.lean, Symmetry.lean.

Proved: `getKernel_dihedral`, `cca_transpose`, `cca_flipRows`, `cca_flipCols`, `cca_rot90`, `cca_isotropic_of_config`, `lenia_isotropic`, `base_isotropic`, `rxn_isotropic`, `nca_isotropic`, `randomStep_isotropic`, `code_isotropic`, `turns_isotropic`, `randomSteps_isotropic`, `codeSteps_isotropic`, `turns_isotropic_rest`, `meta_isotropic`, `meta_turns`.
Note: Exact real arithmetic.

### C15 Shape preservation and the odd-kernel requirement

Natural-number arithmetic of output size.  Status: proved; `Props/`: Kernels.lean, Structure.lean.

Proved: `cca_runs_iff`, `conv_keeps_side_iff`, `forward_shape`, `kernel_side`.
Refuted by witness (the statement in `properties.jsonl` names the exception): `forward_shape_two_refuted`.

### C16 Normalised kernels

Reals; finite sums.  Status: proved; `Props/`: Kernels.lean.

Proved: `kernel_normalised`, `neighborhood_range`.

### C17 Moore-like kernels

Rationals/reals; finite sums.  Status: proved; `Props/`: Kernels.lean.

Proved: `moore_like`, `moore_like_zero`, `inner_moore`, `unknown_kernel`.

### C18 Laplacian kernels annihilate constants

Reals; finite sums.  Status: proved; `Props/`: Kernels.lean.

Proved: `laplacian9_sum`, `log_sum`, `log_abs_sum`, `zero_sum_response`.

### C19 Activation ranges

Reals; `Real.exp` bounds.  Status: proved; `Props/`: Activations.lean.

Proved: `gaussian_range`, `mixture_range`, `doubleGaussian_range`, `smoothIntervals_range`, `smoothIntervals_empty`.

### C20 Growth-mode functions are affine images of bump functions

Reals; counterexample and universal non-positivity; monotone trajectory.  Status: proved; `Props/`: Activations.lean, Dynamics.lean.

Proved: `growth_mode_affine`, `doGaussian_negative`, `doGaussian_never_increases`.
Refuted by witness (the statement in `properties.jsonl` names the exception): `doGaussian_affine_refuted`.

### C21 Mixture parameter vectors are read unambiguously

Parser on lists; length arithmetic.  Status: proved; `Props/`: Activations.lean.

Proved: `mixture_reads_pairs`, `mixture_reads_triples`, `mixture_misreads_pairs`, `mixture_length`.

### C22 Conway's Life (and B subset of S rules) are simulated forever

Reals; refinement relation between CCA and the exact cellular automaton, contraction of the error, induction on steps.  Status: proved; `Props/`: Life.lean.

Proved: `life_forever`, `life_exact`, `life_any_rule`.
Refuted by witness (the statement in `properties.jsonl` names the exception): `life_general_refuted`.
Note: Rules with birth contained in survival: for ever. Other rules: 2500 steps, and a witness that no bound lasts for ever.

### C23 Gray-Scott initial state is an equilibrium

Reals; algebra with square roots; induction on steps.  Status: proved; `Props/`: GrayScott.lean.

Proved: `rxn_initial_equilibrium`, `rxn_trivial_equilibrium`, `background_rest`, `rxn_rest_forever`, `rxn_fixed_rest`, `rxn_default_laplacian`.
Note: Exact arithmetic, for positive feed rate, non-negative kill rate and any zero-sum kernel.

### C24 Adaptive step size contract (CODE)

Loop with arbitrary error oracle; termination measure; invariant on histories.  Status: proved; `Props/`: StepControl.lean.

Proved: `code_step`, `code_step_unique`, `code_not_ready`, `code_diverges`, `code_runs_forever`, `code_time_bounds`.
Note: Exact arithmetic.

### C25 Random step size contract (RandomStepCA)

Draws in [0,1) quantified; induction.  Status: proved; `Props/`: StepControl.lean.

Proved: `randomStep_dt`, `randomStep_time_bounds`, `randomStep_injective`.
Note: Exact arithmetic.

### C26 MetaCA momentum is history up to reset

State machine with momentum; non-interference theorem.  Status: proved; `Props/`: StepControl.lean.

Proved: `meta_reset_forgets`, `meta_new_shape`.
Refuted by witness (the statement in `properties.jsonl` names the exception): `meta_history_matters_refuted`.
Note: Any arithmetic.

### C27 get_dt works at any time

Type-state model of `dt`; invariant and witness.  Status: proved; `Props/`: StepControl.lean.

Proved: `getDt_works`, `classes_getDt`, `code_getDt`, `randomStep_getDt`.
Note: CODE and RandomStepCA: the exceptions are proved.

### C28 Parameter vector round trip

Generic flatten/unflatten over layouts; instances for each class.  Status: proved; `Props/`: Params.lean.

Proved: `cca_params_roundtrip`, `lenia_params_roundtrip`, `nca_params_roundtrip`, `nca_params_roundtrip_none`, `rxn_params_roundtrip`, `cppn_params_roundtrip`, `cppnplus_params_roundtrip`, `agent_params_roundtrip`, `agent_params_filter_iff`.
Refuted by witness (the statement in `properties.jsonl` names the exception): `agent_params_filter_refuted`, `cca_params_scalar_refuted`.
Note: ParamsAgent with its filter on: the exception is proved.

### C29 Wrong-length parameter vectors

Same model, error branches.  Status: proved; `Props/`: Onward.lean, Params.lean.

Proved: `cca_params_longer`, `rxn_params_longer`, `cca_params_short`, `tensors_params_short`, `rxn_params_short`, `cca_params_kernel_short`, `tensors_params_longer`, `lenia_params_longer`, `lenia_params_short`, `nca_params_longer`, `nca_params_kernel_short`.
Refuted by witness (the statement in `properties.jsonl` names the exception): `cca_params_kernel_short_refuted`, `cca_params_scalar_refuted`, `cppnplus_params_longer_refuted`.

### C30 set_params(get_params()) does not change behaviour

Object model of CCA with kernel layer; witness for MooreLike.  Status: proved; `Props/`: Params.lean.

Proved: `cca_set_own`, `cca_set_own_noop_iff`, `cca_set_own_gaussian`.
Refuted by witness (the statement in `properties.jsonl` names the exception): `cca_set_own_moore_refuted`, `cca_set_own_order_refuted`.
Note: Exact arithmetic; the exceptions by witnesses.

### C31 CCA config round trip

Config dictionaries as records; equality of reloaded object; witnesses.  Status: proved; `Props/`: Config.lean.

Proved: `config_roundtrip`, `growth_survives_iff`, `mixture_regrown`, `loaded_saveable`, `orbium_roundtrip`, `life_reload_dies`.
Refuted by witness (the statement in `properties.jsonl` names the exception): `identity_kernel_lost_refuted`, `multichannel_lost_refuted`, `weights_lost_refuted`, `intervals_lost_refuted`, `default_growth_lost_refuted`.
Note: Exact arithmetic; what is lost is proved as negations.

### C32 Saved configs reflect the current parameters

Same object model; witness of staleness.  Status: proved; `Props/`: Config.lean.

Proved: `growth_config_current`, `growth_config_stale`, `kernel_config_frozen`, `kernel_config_first`, `elite_configs_one_kernel`, `evolved_roundtrip_iff`.
Refuted by witness (the statement in `properties.jsonl` names the exception): `gaussian_config_stale_refuted`, `evolved_kernel_lost_refuted`.
Note: Exact arithmetic.

### C33 Restoring a config terminates

Fuel-indexed recursion over a file map; divergence for all fuel; termination by rank.  Status: proved; `Props/`: Restore.lean.

Proved: `restore_terminates`, `restore_terminates_acyclic`, `restore_diverges`, `restore_returns_iff`.
Refuted by witness (the statement in `properties.jsonl` names the exception): `save_over_own_config_refuted`.
Note: Nested calls are counted by fuel; fuel monotonicity is init_mono.

### C34 Gray-Scott config round trip

Object model of RxnDfn.  Status: proved; `Props/`: Reconfigure.lean.

Proved: `rxn_config_roundtrip`, `rxn_config_same`, `rxn_config_trajectory`, `rxn_sound_run`, `rxn_params_override`, `rxn_params_required`.
Refuted by witness (the statement in `properties.jsonl` names the exception): `rxn_identity_lost_refuted`.
Note: Exact arithmetic.

### C35 Changing the kernel changes the dynamics

Object model with separate kernel and layer fields.  Status: proved; `Props/`: Reconfigure.lean.

Proved: `set_radius_takes_effect`, `set_kernel_config_takes_effect`, `set_radius_needs_config`, `add_kernel_no_effect`, `add_kernel_then_init`, `nca_set_kernel_config_no_effect`.
Refuted by witness (the statement in `properties.jsonl` names the exception): `set_radius_reverts_kernel_refuted`.

### C36 Storing a pattern never destroys one

File map; least free counter; induction over store sequences.  Status: proved; `Props/`: Librarian.lean.

Proved: `store_terminates`, `store_effect`, `store_preserves`, `store_only_two_files`, `store_adds_one`, `stores_distinct`.

### C37 Store is crash-safe

Operation log with crash prefixes; invariant.  Status: proved; `Props/`: Librarian.lean.

Proved: `crash_keeps_meta`, `crash_keeps_patterns`, `crash_then_store`.
Refuted by witness (the statement in `properties.jsonl` names the exception): `crash_unloadable_refuted`.

### C38 Pattern metadata round trip

String model of csv write/read.  Status: proved; `Props/`: Librarian.lean.

Proved: `load_store`, `load_store_exact`, `config_written`, `config_given`.
Refuted by witness (the statement in `properties.jsonl` names the exception): `comma_lost_refuted`, `newline_lost_refuted`, `return_lost_refuted`.

### C39 Index lists exactly the loadable patterns

List of names; filter/sort specification.  Status: proved; `Props/`: Librarian.lean.

Proved: `index_spec`, `index_exact`, `hidden_name_never_listed`, `index_after_store`.
Refuted by witness (the statement in `properties.jsonl` names the exception): `index_duplicates_refuted`.

### C40 Elite selection is correct

Argsort model; permutation and order facts.  Status: proved; `Props/`: Cmaes.lean.

Proved: `eliteKeep_bounds`, `truncation_correct`, `truncation_empty`, `tournament_correct`, `lottery_correct`, `lottery_probability`, `nan_is_best`.

### C41 Elitism preserves the best agents

Heap of agents with aliasing; invariant for slot 0, counterexample for slot 1.  Status: proved; `Props/`: Evolution.lean.

Proved: `best_survives`, `elite_survive`, `nobody_survives`.
Refuted by witness (the statement in `properties.jsonl` names the exception): `elite_lost_refuted`.

### C42 Covariance stays a covariance

Real matrices; Gram matrix argument.  Status: proved; `Props/`: Evolution.lean.

Proved: `eliteCovar_covariance`, `startCovar_covariance`, `covariance_always`, `means_average`.

### C43 Early stopping saves evaluated individuals

Generation loop; witness on the early-stop path.  Status: proved; `Props/`: Evolution.lean.

Proved: `logged_elite_evaluated`, `last_generation_saves_best`, `full_run_saves_best`, `early_stop_saves`, `early_stop`, `calm_iff`.
Refuted by witness (the statement in `properties.jsonl` names the exception): `early_stop_refuted`.

### C44 Parallel evaluation equals serial evaluation

Range arithmetic by induction on workers; small-step MPI semantics.  Status: proved; `Props/`: Mpi.lean.

Proved: `split_correct`, `split_balanced`, `split_one`, `parallel_eq_serial`, `parallel_done`.

### C45 Population bookkeeping

State machine of a run.  Status: proved; `Props/`: Evolution.lean.

Proved: `population_bookkeeping`, `log_step`, `log_count`, `log_accumulates`.

### C46 Frame order

Zero-padded decimal strings; lexicographic order.  Status: proved; `Props/`: Frames.lean.

Proved: `frameName_sorted`, `gif_plays_trajectory`, `gif_no_steps`.
Refuted by witness (the statement in `properties.jsonl` names the exception): `stale_frame_refuted`.

### C47 Image masks

Mask pointwise, shape arithmetic.  Status: proved; `Props/`: Images.lean.

Proved: `getMask_spec`, `bitePoints_two`, `bitePoints_pow`, `bite_ok_iff`, `bite_pow_two`, `bite_not_square`, `bite_tiny`, `prep_default`, `prep_ok`, `aperture_spec`, `prep_value`, `prep_ok_iff`, `biteCoord_grid`.
Refuted by witness (the statement in `properties.jsonl` names the exception): `bite_58_refuted`.

### C48 Halting task initial grid and reward

Python slice semantics; reals for the reward.  Status: proved; `Props/`: Wrappers.lean.

Proved: `startGrid_support`, `activeGrid_count`, `rollout_step`, `activeGrid_range`, `halting_reward_range`, `halting_reward_best`.
Note: Exact arithmetic.

### C49 Glider reward telescopes

Fold over trajectory; induction.  Status: proved; `Props/`: Wrappers.lean.

Proved: `glider_telescopes`, `glider_reward_bound`, `glider_zero_steps`, `glider_returns`.
Note: Exact arithmetic.

### C50 Vanishing step record

Fold over activity history; induction.  Status: proved; `Props/`: Analyze.lean.

Proved: `lastStep_spec`, `lastStep_all_vanished`, `batchEmpty_inactive`.

### C51 Entropy of a grid

Reals; sums over 256 bins; counting identity.  Status: proved; `Props/`: Analyze.lean.

Proved: `toByte_range`, `byteProb_sum`, `gridEntropy_shannon`, `gridEntropy_bounds`, `gridEntropy_perm`, `table_total`, `conditional_entropy_bounds`, `multiconditional_entropy_bounds`.
Refuted by witness (the statement in `properties.jsonl` names the exception): `uniform_entropy_refuted`, `conditional_entropy_refuted`.
Note: over exact reals.

### C52 CPPN patterns are valid start states

Exact rational `arange` length; range of output over reals.  Status: proved; `Props/`: Cppn.lean.

Proved: `cppnPoints_eq`, `cppnPoints_tiny`, `cppnAction_ok_iff`, `cppnAction_range`, `dampedSine_wave`.

### C53 Filtered parameters stay in the safe box

Reals/ordered field; pointwise.  Status: proved; `Props/`: Cppn.lean.

Proved: `agent_filter_box`, `agent_filter_idempotent`, `agent_action`, `agent_unfiltered`, `agent_new`.
Refuted by witness (the statement in `properties.jsonl` names the exception): `agent_new_unfiltered_refuted`.

### C54 Experiment dispatch

Substring dispatch over lists of characters.  Status: proved; `Props/`: Evolve.lean.

Proved: `searchKind_spec`, `expId_pattern`, `caFn_name`, `envFn_name`, `caFn_spec`, `envFn_spec`, `caFn_first`, `envFn_first`, `evolve_spec`, `evolve_error_iff`.
Refuted by witness (the statement in `properties.jsonl` names the exception): `names_refuted`, `env_ignored_refuted`.

### C55 Logged command line keeps every token

Grouping of tokens; permutation.  Status: proved; `Props/`: Evolve.lean.

Proved: `groupArgs_error_iff`, `groupArgs_ok`, `entryArgs_tokens`, `entryArgs_eq_iff`.
Refuted by witness (the statement in `properties.jsonl` names the exception): `entryArgs_refuted`.

### C56 Cloning saves the best network

Heap with live references; witness.  Status: proved; `Props/`: Clone.lean.

Proved: `clone_saves`, `clone_counts`, `clone_saves_none`, `clonePath_replaced`, `clonePaths_constant`.
Refuted by witness (the statement in `properties.jsonl` names the exception): `clone_saves_refuted`, `clonePaths_overwrite_refuted`.
Note: saving the best weights is refuted; what is saved is characterised.

### C57 Hidden-width schedule

Natural-number iteration.  Status: proved; `Props/`: Clone.lean.

Proved: `nextHidden_bounds`, `hiddenAt_monotone`, `hiddenAt_above`, `hiddenAt_reaches`.
Refuted by witness (the statement in `properties.jsonl` names the exception): `hiddenAt_stalls_refuted`.

### C58 Step predictor uses all its layers

Index sets.  Status: proved; `Props/`: Predictor.lean.

Proved: `predictorForward_spec`, `predictor_dead_layers`, `predictor_dead_count`, `predictor_even_same`, `predictor_used_layers`.

### C59 HaltingWrapper rewards wrong predictions

Reward over reals with the prediction as an argument; sign of the difference.  Status: proved; `Props/`: Wrappers.lean.

Proved: `predictor_reward`, `predictor_reward_worst`.
Note: Exact arithmetic.

### C60 Training and evaluation labels

Both label functions; equality and a witness where they differ.  Status: proved; `Props/`: Wrappers.lean.

Proved: `train_label_eval`.
Refuted by witness (the statement in `properties.jsonl` names the exception): `labels_differ_refuted`.
Note: Exact arithmetic.

### C61 Glider rollout stops on shrinking patterns

Rollout as a fold with break; characterisation of the stopping step; witness.  Status: proved; `Props/`: Wrappers.lean.

Proved: `glider_shrink_stops`, `glider_goes_on`, `glider_run_stop`.
Refuted by witness (the statement in `properties.jsonl` names the exception): `glider_stop_not_static_refuted`.

### C62 Glider displacement is diluted by the batch size

Reals; centre of mass with the numerator of sample 0 and the total of the whole batch; identical members.  Status: proved; `Props/`: Wrappers.lean.

Proved: `com_batch_dilution`, `com_batch_smaller`.
Note: Exact arithmetic.

### C63 Restoring a missing config is silent

Error-free branch of the restore model on a missing file.  Status: proved; `Props/`: Restore.lean.

Proved: `restore_missing`, `init_missing`.

### C64 Default growth functions

Default construction with the seeded draws as arguments; the persistence draws re-use the genesis seeds.  Status: proved; `Props/`: Reconfigure.lean.

Proved: `default_persistence_parameters`, `default_persistence_same`.
Note: Exact arithmetic.

### C65 NCA config round trip

Object model of NCA; equality of the reloaded object; witness for set_kernel.  Status: proved; `Props/`: Reconfigure.lean.

Proved: `nca_config_roundtrip`, `nca_load_vec`, `nca_load_plain`, `nca_load_scalar`.
Refuted by witness (the statement in `properties.jsonl` names the exception): `nca_set_kernel_reload_refuted`.
Note: Exact arithmetic.

### C66 Saving does not change the automaton and is repeatable

make_config as a state transformer on the object model; stability from the second call on; witness for the first two calls.  Status: proved; `Props/`: Reconfigure.lean.

Proved: `make_config_pure`, `make_config_stable`, `make_config_second_on`.
Refuted by witness (the statement in `properties.jsonl` names the exception): `make_config_twice_refuted`.

### C67 Cropping a pattern

Natural-number/Int slice arithmetic of the crop.  Status: proved; `Props/`: Librarian.lean.

Proved: `crop_inside`, `crop_general`, `crop_clamped`, `crop_reversed`.

### C68 The search stays in a small subspace

Real linear algebra: range of the elite covariance, dimension bound, induction over generations; uses the range assumption on multivariate_normal.  Status: proved; `Props/`: Evolution.lean.

Proved: `search_confined`.

### C69 Seeds of one experiment are not independent

Witness run: the second seed starts from the state the first left.  Status: proved; `Props/`: Evolution.lean.

Proved: `run_leaves_elite`.
Refuted by witness (the statement in `properties.jsonl` names the exception): `seeds_not_independent_refuted`.

### C70 Initial population

Start population as a function of the draws.  Status: proved; `Props/`: Evolution.lean.

Proved: `params_start_sampled`.
Refuted by witness (the statement in `properties.jsonl` names the exception): `cppnPlus_start_refuted`, `cppn_start_ignores_refuted`.

### C71 Parallel evaluation neither deadlocks nor leaves workers running

Small-step MPI semantics: progress measure, invariant over all schedules.  Status: proved; `Props/`: Mpi.lean.

Proved: `no_deadlock`, `parallel_terminates`.

### C72 Shifts, windows and start box in the analysis code

Python slice arithmetic with negative indices; pointwise specification of shift and window.  Status: proved; `Props/`: Analyze.lean.

Proved: `shiftAxis_spec`, `npShift_spec`, `directionShift_spec`, `wrapWindow_spec`, `boxAssign_ok_iff`, `box_centred`, `box_clear_of_border`.
Refuted by witness (the statement in `properties.jsonl` names the exception): `windowAxis_refuted`, `boxAssign_odd_refuted`.

### C73 CPPN patterns are mirror symmetric

Reals; the mirror map leaves the input features of the network unchanged.  Status: proved; `Props/`: Cppn.lean.

Proved: `cppnAction_mirror`, `cppnFeatures_mirror`, `cppnFeatures_sides`, `cppnCoord_mirror`.
Note: over exact reals.

### C74 The step predictor only ever predicts growth

Reals; every used block adds a sigmoid, which lies strictly between 0 and 1; induction over the blocks.  Status: proved; `Props/`: Predictor.lean.

Proved: `predictor_increases`, `predictor_never_exact`, `predictor_no_repeat`.
Note: over exact reals.

### C75 The step predictor cannot save

File-system model in which a path below a regular file cannot be written.  Status: proved; `Props/`: Predictor.lean.

Proved: `predictorSave_error`, `predictorFit_error`.

### C76 One step is the published rule

Closed formula of a step over exact reals, from the convolution model; covers success of the call, the new universe and the new time.  Status: proved; `Props/`: Rules.lean.

Proved: `cca_rule`, `cca_rule_one`, `cca_rule_sequential`, `lenia_rule`, `lenia_rule_one`, `base_rule`, `nca_rule`.
Note: exact arithmetic.

### C77 RxnDfn steps the Gray-Scott equations

Same, for the Gray-Scott equations and the default parameters.  Status: proved; `Props/`: Rules.lean.

Proved: `rxn_rule`, `rxn_default_rule`.
Note: exact arithmetic.

### C78 Functional weights move all channels together

Corollary of C76: the update term does not depend on the external channel.  Status: proved; `Props/`: Rules.lean.

Proved: `cca_channels_move_together`, `cca_equal_channels`.
Note: exact arithmetic.

### C79 Network-made patterns never move vertically

Reals; reflection equivariance (C14) applied to patterns the network draws; the row moment of a mirror image is the reversed moment.  Status: proved; `Props/`: Mirror.lean, Sideways.lean.

Proved: `cca_mirror_forever`, `mirrorRows_moment`, `cppn_mirrorRows`, `cppn_never_moves_vertically`, `cppn_pattern_exists`, `mirror_forever`, `rxn_mirror_forever`, `meta_mirror_forever`, `code_mirror_forever`, `cppn_never_moves_vertically_rest`, `cppn_rxn_never_moves_vertically`, `cppn_glides_sideways`.
Note: exact arithmetic.

### C80 Step rules of RandomStepCA, CODE and MetaCA

Same closed formulas as C76 for the three other step functions.  Status: proved; `Props/`: Rules2.lean.

Proved: `randomStep_rule`, `code_grid_rule`, `meta_rule`, `meta_first_step`, `meta_inertia`.
Note: Exact arithmetic.

### C81 What get_frame returns

Same formulas for the display path, for every mode value.  Status: proved; `Props/`: Rules2.lean.

Proved: `frame_rule`, `lenia_frame_rule`, `nca_frame_rule`.
Note: Exact arithmetic.

### C82 Agents of a population do not influence each other's fitness (CCA and RandomStepCA)

A relation between automaton objects (same shapes, other parameter values, other time) that set_params collapses and calls preserve; induction over steps, replicates and agents. Counterexamples are one-channel automata with constant growth, computed with the rules of C80.  Status: proved; `Props/`: Evaluate.lean, Evaluate2.lean.

Proved: `fitness_history_free`, `fitness_history_free_random`, `randomStep_keeps_dt`, `evalAll_divided`.
Refuted by witness (the statement in `properties.jsonl` names the exception): `meta_history_refuted`, `meta_divided_refuted`, `code_history_refuted`.
Note: Exact arithmetic. The exceptions for MetaCA and CODE are proved with concrete agents (CODE: for every sufficiently large bound on the search for a step size).

### C83 What the random seed of a search controls

A model of the serial loop that passes the environment and the generators along, shown equal (generation by generation, using C82) to one that has neither; the consequences are read off the latter. Counterexample for small populations computed step by step.  Status: proved; `Props/`: Search.lean, Search2.lean.

Proved: `cca_search`, `live_gens`, `seedGens_runGens`, `same_product`, `first_generation`, `best_never_falls`, `best_never_falls_zero`, `live_completes`.
Refuted by witness (the statement in `properties.jsonl` names the exception): `best_falls_refuted`.
Note: Exact arithmetic. The general statements are for every environment that forgets; cca_search is the one for CCA. RandomStepCA draws from numpy while it runs, so there the noise follows the draws of the last agent evaluated (live_gens).

### C84 Growth functions and kernels have the shape their parameters describe

Closed forms on the reals, compared with textbook bells, polynomials and rings; order facts carried through the normalisation; antisymmetry by reflecting the grid. DoGaussian mode 1: three points force 1 = u^8 with u < 1.  Status: proved; `Props/`: Shapes.lean.

Proved: `growth_values`, `growth_modes`, `gaussian_growth_sign`, `cosOverX2_values`, `smoothLife_values`, `gaussian_kernel_order`, `smoothLife_kernel`, `kernel_defaults`, `edge_antisymmetric`, `edge_sum`, `edge_kernel_order`.
Refuted by witness (the statement in `properties.jsonl` names the exception): `doGaussian_mode_refuted`, `edge_constant_refuted`, `edge_kernels_refuted`.
Note: Exact arithmetic. DoGaussian kernels always use the default dx.

### C85 The built-in rules are the rules they are named after

Loading computed to the object left behind, then the step rule of C76 (re-proved for an arbitrary identity kernel) and the shapes of C84.  Status: proved; `Props/`: Builtin.lean.

Proved: `orbium_rule`, `geminium_rule`, `smoothLife_rule`, `profile_unique`.
Note: Exact arithmetic, one channel, circular padding, functional mode. SmoothLife with its default intervals.

### C86 The library's glider glides and its puffer puffs

Patterns run on the infinite plane by a verified row-parallel bit engine inside a box whose border stays empty; a box run lifts to every larger torus; two patterns separated by two empty columns evolve independently, so the trail follows by induction; C22 carries it to the continuous automaton.  Status: proved; `Props/`: Patterns.lean.

Proved: `glider_flies`, `glider_moves`, `glider_circles`, `life_glider`, `life_puffer`, `puffer_puffs`.
Note: Exact arithmetic; the automaton is the one load_life_like gives.

### C87 What analyze_universe measures

Sums over all cells; Cauchy-Schwarz for the bounds; induction over the analysis loop for the rows.  Status: proved; `Props/`: Analysis.lean.

Proved: `autocorrelate_value`, `autocorrelate_bounds`, `autocorrelate_comm`, `autocorrelate_roll`, `auto_columns`, `auto_columns_channels`, `printed_average`, `flags_spec`, `ratios_spec`, `fertility_mortality`, `analyze_rows`, `early_end_row`, `mortality_monotone`.
Note: Exact arithmetic; one channel except for the meaning of the columns; the entropies have their own claim.

### C88 Where analyze_multiverse saves its results

Path functions on character lists; induction over the directory listing with a parameter for the outcome of each analysis.  Status: proved; `Props/`: Multiverse.lean.

Proved: `save_beside`, `save_in_parent`, `multiverse_skip`, `multiverse_saves`, `multiverse_no_directory`, `savePath_inj`, `savePath_clash`.
Note: POSIX paths; loading and analysing one file is a parameter.

### C89 Fitness is the mean reward

An inductive relation describes the episodes; the loops are shown equivalent to it by induction, for every environment.  Status: proved; `Props/`: Evaluate.lean, Fitness.lean.

Proved: `fitness_mean`, `fitness_zero`, `halting_fitness`, `random_reward`, `random_fitness`, `cca_call_clock`.
Note: Exact arithmetic; the random generators are parameters.

### C90 Life survives rounding

The step is analysed over an abstract arithmetic with bounded errors; an error budget shows that being within 1/50 of a 0/1 state is invariant; induction on the number of steps. A type of doubles instantiates the hypotheses.  Status: proved; `Props/`: Rounding.lean.

Proved: `machine_life_forever`, `machine_life_exact`, `machine_glider`.
Note: The accuracy of the arithmetic and of the computed growth functions is a hypothesis; double precision without overflow and underflow is shown to meet the arithmetic part, with growth functions correct to three digits.

### C91 What the pictures of a gif show

Floor bounds for the bytes and cases on the number of channels; the loop with exceptions is reduced to the one of C46; the film of Life follows from C22.  Status: proved; `Props/`: Render.lean.

Proved: `picture_colour`, `picture_length`, `picture_red`, `picture_map`, `picture_first_sample`, `picture_close`, `picture_darker`, `picture_transparent`, `film_plays`, `film_other_modes`, `life_gif`, `picture_two_colours`.
Refuted by witness (the statement in `properties.jsonl` names the exception): `film_empty_refuted`.
Note: Exact arithmetic; the casts of values outside [0, 1] are platform dependent and not covered; the colour map is a parameter.

### C92 Coevolution scores one rule and saves another

The parameter lemmas of C31 and C32 applied to an overlong vector; induction over the elite.  Status: proved; `Props/`: Coevolve2.lean.

Proved: `coevo_step`, `coevo_saved_ignores_rule`, `coevo_saved`, `coevo_saves`, `coevo_logged`, `coevo_saved_iff`.
Refuted by witness (the statement in `properties.jsonl` names the exception): `coevo_saved_refuted`.
Note: The split of an agent into weights and rule is an argument; the objects carry growth configs, as they do after the first make_config.

### C93 Patterns and coevolved agents are scored independently

A relation between automaton objects that no call shows (as in C82), kept by the rollout loop by induction; resetting erases the momentum; explicit one-cell witnesses for CODE.  Status: proved; `Props/`: Coevolve2.lean.

Proved: `pattern_history_free`, `pattern_history_free_random`, `pattern_history_free_meta`, `coevo_history_free`, `coevo_history_free_random`, `coevo_history_free_meta`, `pattern_one_rollout`, `pattern_one_rollout_meta`, `coevo_one_rollout`, `episode_reward`.
Refuted by witness (the statement in `properties.jsonl` names the exception): `pattern_code_refuted`, `coevo_code_refuted`.
Note: The network is an arbitrary function from weights to patterns that draws no random numbers.

### C94 What the gifs of a search show

The loops by induction over positions; the last generation of a run exposed by induction; a run with samples 0, 1, 2, ... as witness; names decoded by lengths and digits; pigeonhole on milliseconds.  Status: proved; `Props/`: Gifs.lean, Gifs2.lean.

Proved: `early_gifs`, `late_gifs_rule`, `late_gifs_pattern`, `universe_gifs`, `universe_gifs_last`, `pattern_gifs`, `coevo_gifs`, `early_gifs_coevo_elite`, `late_gifs_coevo`, `gif_start`, `gifPath_inj`, `gifPath_seed`, `pattern_files`.
Refuted by witness (the statement in `properties.jsonl` names the exception): `universe_gifs_refuted`, `coevo_gifs_change_refuted`, `gifs_pattern_coevo_refuted`, `gif_start_refuted`, `one_generation_files_refuted`, `gifs_overwrite_refuted`, `coevo_overwrite_refuted`.
Note: What one gif draws is C91; whole seeds assume draws numpy can produce and a population of at least one agent.

### C95 Searching for unpredictable rules

A relation between two runs carried through every loop at once; independence transferred from C82 by moving the reset into the step; counting over a product; a one-cell MetaCA with constant growth as witness.  Status: proved; `Props/`: Halting.lean, Halting2.lean.

Proved: `unpredictable_history_free`, `unpredictable_history_free_random`, `unpredictable_history_free_meta`, `halting_step_parts`, `train_meaning`, `judge_meaning`, `judge_range`, `prediction_range`, `train_target_eval`, `dead_labels`, `trainRun_stops`, `evalRun_stops`, `halting_runs_lossless`, `cca_halting_runs_lossless`, `forward_ok_iff`, `forward_visits`, `avgPool_total`, `avgPool_between`, `halting_step_fails`, `halting_step_ok`, `cca_judge_reset`, `randomStep_judge_reset`.
Refuted by witness (the statement in `properties.jsonl` names the exception): `meta_judge_refuted`.
Note: The layers and the optimizer are arbitrary functions. CODE keeps its step size over resets (C82) and is not covered by the independence.

### C96 Starting and continuing a search

Two runs joined by the file between them; the best of a list as a sorted permutation; a linear map with a kernel shows that the last covariance is singular while the starting one is positive definite.  Status: proved; `Props/`: Resume.lean.

Proved: `start_variance`, `start_positive`, `load_ok_iff`, `load_other`, `load_same`, `resume_any`, `full_run_elite`, `resume_keeps_best`, `resume_keeps_mean`, `resume_coevo`.
Refuted by witness (the statement in `properties.jsonl` names the exception): `resume_covar_refuted`, `resume_pattern_refuted`, `resume_coevo_refuted`, `resume_tournament_refuted`.

### C97 Browsing the pattern library in the app

Handlers as functions of the page state; invariants by induction on the events of a session; permutations and rotations of the index; the shipped shapes as one finite table.  Status: proved; `Props/`: Browser.lean.

Proved: `paste_ok_iff`, `paste_cells`, `next_shows`, `prev_shows`, `prev_single`, `this_shows`, `tour`, `next_prev`, `session_index`, `session_perm`, `click_index`, `next_skips`, `all_passed_over`, `one_round`, `shipped_unshown`, `shipped_round`, `go_toggles`, `speed_buttons`, `session_clock`, `caption_from_index`, `session_cells`, `start_shows`, `this_tells`, `reset_tells`.
Refuted by witness (the statement in `properties.jsonl` names the exception): `stored_none_refuted`, `broken_next_refuted`, `broken_prev_refuted`, `step_reset_refuted`.

### C98 Training and testing the step predictor

Folds over batches against closed forms; the epochs of fit against the file system model of C75; string replacement as an inductive relation; the script as a loop of runs that an exception ends.  Status: proved; `Props/`: PredictorFit.lean.

Proved: `evaluate_eq`, `evaluate_perm`, `batchMean_eq`, `evaluate_scale`, `loader_rows`, `loader_count`, `loader_sizes`, `train_epoch`, `smooth_between`, `smooth_lag`, `first_loss_weight`, `saveProgress_eq`, `fit_none`, `fit_stops`, `split_ok`, `split_fails`, `testPath_replaced`, `testPath_same_iff`, `test_leak`, `script_stops`, `script_untrained`, `script_few_rows`, `expTag_inj`.
Refuted by witness (the statement in `properties.jsonl` names the exception): `evaluate_global_refuted`, `default_test_refuted`.
Note: Over exact reals; the network and the optimizer step are arguments.

### C99 The Life of the notebooks

Rational arithmetic for the intervals; bounds on the exponential for the kernels and the growth; a lower bound on the growth of one cell per step for the drift.  Status: proved; `Props/`: Notebook.lean.

Proved: `interval_nine`, `kernel_fn_unused`, `nbKernel_mean`, `nbKernel_symm`, `nbKernel_order`, `nbMoore_eq`, `nbEye_eq`, `nbConv_moore`, `nbConv_eye`, `life_growth_count`, `notebook_step`, `life_growth_two`, `glaberish_step`, `glaberish_forever`, `nbMakeGif_spec`.
Refuted by witness (the statement in `properties.jsonl` names the exception): `interval_eight_refuted`, `notebook_drift_refuted`.
Note: Over exact reals.

### C100 All step sizes follow one trajectory in continuous time

A clipped Euler method: two runs are compared over a common refinement of their steps, which makes equal steps a Cauchy sequence; its limit is the trajectory. The mean value theorem bounds the slopes.  Status: proved; `Props/`: SmallSteps.lean.

Proved: `cca_sensitivity`, `cca_noise`, `cca_follows`, `lenia_follows`, `random_follows`, `code_follows`, `cca_limit`, `trajectory_facts`, `trajectory_deriv`, `act_mild`, `gaussian_mild`, `radial_mild`, `code_accepts`, `code_step_large`.
Refuted by witness (the statement in `properties.jsonl` names the exception): `mask_jump_refuted`.
Note: Over exact reals, on the torus, with the identity layer and without sequential weights.

### C101 The size of the torus does not matter

A relation between cells of two universes of different sizes (they see the same within r) that one step keeps while r shrinks by the kernel radius.  Status: proved; `Props/`: Windows.lean.

Proved: `cca_blind`, `lenia_blind`, `rxn_blind`, `nca_blind`, `meta_blind`, `drawn_blind`, `blind_repeats`, `blind_figure`, `blind_background`, `coded_matched`, `coded_repeats`, `coded_figure`.
Refuted by witness (the statement in `properties.jsonl` names the exception): `figure_room_refuted`, `zeros_blind_refuted`.
Note: Lawless arithmetic: a cell is computed in the same way on every torus.

### C102 Which kernels an automaton takes

Tensors as a shape with entries by index list; reshape through row-major positions, broadcasting axis by axis; methods return the state left behind together with the outcome.  Status: proved; `Props/`: KernelLoad.lean.

Proved: `neighborhood_taken`, `identity_taken`, `three_axes_rejected`, `neighborhood_layer`, `identity_layer`, `default_identity_layer`, `refused_kernel_used`, `rxn_kernels`.
Note: Tensors of any rank; reshape and broadcasting as torch does them.

### C103 Gray-Scott: balance of the species, and the level below which a pattern dies out

Maximum principle for the discrete diffusion term (the kernel shifted at its centre is a non-negative weighting), then geometric bounds carried through the steps by induction; the sums by reindexing the torus.  Status: proved; `Props/`: GrayScottDecay.lean.

Proved: `rxn_mass`, `rxn_extinction`, `rxn_comes_to_rest`, `rxn_threshold`, `default_exchanges`, `rxn_default_resolved`, `rxn_default_extinction`.
Note: Exact real arithmetic.

### C104 Faint universes die out within a known number of steps

A bound on the highest cell carried through the steps by induction, on top of the published rule (C76, C80); numbers for Orbium and Geminium from power series bounds of exp.  Status: proved; `Props/`: Faint.lean.

Proved: `cca_dies`, `lenia_dies`, `random_dies`, `code_dies`, `lenia_window`, `orbium_dies`, `geminium_dies`, `orbium_grows`.
Note: Exact real arithmetic.

### C105 Starting a search starts one mantle and its arms

The process tree computed with a depth bound, the command line as text that mpirun parses back; induction over the processes of a communicator.  Status: proved; `Props/`: Launch.lean, Raises.lean.

Proved: `launch_variable`, `launch_command`, `launch_env`, `crew_started`, `launchers_started`, `search_started`, `serial_started`, `team_jobs`, `serial_jobs`.
Refuted by witness (the statement in `properties.jsonl` names the exception): `launch_threads_refuted`, `one_worker_refuted`, `negative_workers_refuted`, `stale_mark_refuted`, `wrong_size_refuted`, `started_by_hand_refuted`.
Note: mpirun is modelled as far as the command goes that mpi_fork builds.

### C106 Gray-Scott and neural automata follow one trajectory in continuous time

The general theory of clipped Euler steps of C100, with bounds and slopes of the Gray-Scott terms and of a three-layer network; C103 and C104 carried over by taking the limit.  Status: proved; `Props/`: Trajectories.lean.

Proved: `grayScott_tame`, `network_tame`, `euler_limit`, `rxn_follows`, `rxn_limit`, `rxn_trajectory`, `rxn_flow_extinction`, `nca_follows`, `nca_limit`, `nca_trajectory`, `activations_slope`, `cca_flow_dies`.
Note: Exact real arithmetic.

### C107 A symmetric pattern cannot glide across its symmetry

Equivariance (C02, C14) and independence of the clock; a symmetry conjugates the displacement into its mirror image.  Status: proved; `Props/`: Gliding.lean.

Proved: `automata_fair`, `automata_fairSquare`, `half_turn_stays`, `half_turn_jumps`, `mirror_moves_along`, `diagonal_moves_along`.
Refuted by witness (the statement in `properties.jsonl` names the exception): `half_turn_jump_refuted`, `lopsided_glides_refuted`.
Note: Exact real arithmetic.

### C108 A search sees only the ranking of the fitness, and no coordinates

Relational induction over the generations for the ranking; equivariance of selection, mean, covariance and sampling under an affine map for the coordinates.  Status: proved; `Props/`: Coordinates.lean, Ranking.lean.

Proved: `update_ranking_only`, `runGens_ranking_prefix`, `runGens_ranking_only`, `runSeed_ranking_only`, `rescaling_reward`, `shifting_reward`, `Coord.update_frame`, `Coord.runGens_frame`, `Coord.runSeed_frame`, `params_frame`, `cppn_frame`, `pattern_start_isotropic`.
Refuted by witness (the statement in `properties.jsonl` names the exception): `scaling_reward_refuted`, `universe_start_isotropic_refuted`.
Note: Exact real arithmetic; np.argsort and the draws are arguments.

### C109 In machine arithmetic every run ends in a cycle

Pigeonhole over the finite set of universes, using that no step reads the clock; injective = surjective on finite sets for the universe without a past.  Status: proved; `Props/`: Recurrence.lean.

Proved: `cca_recurs`, `lenia_recurs`, `nca_recurs`, `base_recurs`, `rxn_recurs`, `meta_recurs`, `code_recurs`, `code_hangs_iff`, `Spec.EndsInCycle.happens`, `Spec.EndsInCycle.always`, `Spec.EndsInCycle.recurs`, `cca_eden`.
Refuted by witness (the statement in `properties.jsonl` names the exception): `exact_recurs_refuted`.
Note: Any finite carrier; a convolution is taken to be a deterministic function of its inputs.

### C110 Runs depend continuously on every number of the rule

Convergence along an arbitrary filter through activation, gathering, mean, clip and n Euler steps; set_params read back as take/drop of the vector; metric on vectors and universes for the epsilon-delta form.  Status: proved; `Props/`: Continuity.lean.

Proved: `runs_tend`, `kernel_tends`, `params_continuous`, `lenia_params_continuous`, `rxn_runs_tend`, `nca_runs_tend`.
Refuted by witness (the statement in `properties.jsonl` names the exception): `params_jump_refuted`.
Note: Exact reals; functional update on the torus with the default identity kernel.

### C111 Neural automata: every number has its place, and fresh networks only grow

Slices of the flat vector computed tensor by tensor; signs propagated through the three layers; positive minimum of a continuous activation on a compact interval gives a per-step growth floor; runs as sequences of calls with their own masks.  Status: proved; `Props/`: Neural.lean.

Proved: `saved_activation`, `unknown_activation`, `network_params_length`, `network_layout`, `network_reload`, `fresh_never_shrinks`, `lit_fills`, `fresh_fills`, `empty_stays_empty`, `empty_lights_up`, `default_network`, `default_fills`, `run_exists`, `saved_activation_name`.
Note: Exact reals; a sequence of masks stands for dropout.

### C112 Gradient switches and registered parameters do what the calls say

Parameters as identities with a flag; in-place writes as a partial operation; frame conditions per call and induction over the sequence of calls.  Status: proved; `Props/`: Grad.lean.

Proved: `noGrad_quiet`, `toDevice_quiet`, `setParams_quiet`, `lenia_setParams_quiet`, `include_registers`, `construct_grad`, `construct_quiet`, `load_quiet`, `load_leaves_stale`, `calls_quiet`, `nca_switches`, `rxn_registered_copies`.
Refuted by witness (the statement in `properties.jsonl` names the exception): `use_grad_with_config_refuted`, `rxn_registry_stale_refuted`.
Note: Parameters as identities with a flag; values left out for CCA and NCA.

### C113 Different parameters, same automaton

Steps factored through the growth they add; sums regrouped by blocks of internal channels; permutation-invariant sums; conjugation by rescaling of the momentum and by u -> 1 - u, lifted to runs by induction.  Status: proved; `Props/`: Redundancy.lean.

Proved: `same_growth_same_step`, `internal_average`, `internal_order`, `peaks_order`, `width_mirror`, `weights_and_dt`, `layers_trade`, `meta_gears`, `dual_step`, `dual_dual`, `dual_run`.
Note: Exact reals.

### C114 Walls: padding modes other than the torus

Padding read as an extension of the board to the plane; folding of the plane onto the board; conjugation of runs by the folding map; induction on steps with a shrinking interior.  Status: proved; `Props/`: Walls.lean, Walls2.lean.

Proved: `padRead_extends`, `extends_exists`, `padFits_iff`, `cca_wall_rule`, `lenia_wall_rule`, `rxn_wall_rule`, `cca_wall_symmetry`, `lenia_wall_symmetry`, `rxn_wall_symmetry`, `nca_wall_symmetry`, `cca_mirror_run`, `lenia_mirror_run`, `rxn_mirror_run`, `nca_mirror_run`, `cca_far_from_walls`, `lenia_far_from_walls`, `rxn_far_from_walls`, `nca_far_from_walls`, `cca_const_walls`, `lenia_const_walls`, `rxn_const_walls`, `nca_const_walls`.
Refuted by witness (the statement in `properties.jsonl` names the exception): `const_zeros_refuted`, `roll_walls_refuted`.
Note: Closed-form rules for CCA in functional mode, Lenia and Gray-Scott over exact reals.

### C115 What the entries of a config mean

Case analysis over names and entries against closed-form functions; permutation invariance of dictionary lookup.  Status: proved; `Props/`: Settings.lean.

Proved: `cfg_gaussian`, `cfg_doGaussian`, `cfg_doubleGaussian`, `cfg_doubleGaussian_numbers`, `cfg_mixture_default`, `cfg_mixture_triples`, `cfg_mixture_pairs`, `cfg_mixture_odd`, `cfg_polynomial`, `cfg_smoothIntervals`, `cfg_plain`, `cfg_unknown`, `kernel_reads`, `kernel_order`, `kernel_arguments`, `kernel_tensor`, `kernel_tensor_params`, `instant_defaults`, `dynamics_instant`.
Refuted by witness (the statement in `properties.jsonl` names the exception): `kernel_params_order_refuted`.
Note: Exact reals.

### C116 What the demonstrations do

Clock progress between the smallest and the largest step gives termination and bounds on the number of calls; kernel evaluation over the whole pattern tables.  Status: proved; `Props/`: Demos.lean.

Proved: `clockLoop_ends`, `random_until`, `code_until`, `random_demo`, `orbium_rows`, `code_demo_steps`, `meta_round`, `keywords_iff`, `code_demo`, `random_demo_extremes`, `orbium_table`, `pattern_tables`, `lenia_demo_start`.
Refuted by witness (the statement in `properties.jsonl` names the exception): `meta_demo_refuted`, `meta_demo_unpack_refuted`.
Note: Exact reals for the loops; the inner loop of CODE is given enough rounds.

### C117 Which universes stand still

A clamped Euler step fixes a cell iff its rate points nowhere inside [0,1]; induction over steps; the intermediate value theorem for a homogeneous zero of the rate and monotone convergence towards it.  Status: proved; `Props/`: StillLifes.lean.

Proved: `clip_rest_iff`, `alive_unmasked`, `cca_still_iff`, `lenia_still_iff`, `nca_still_iff`, `rxn_still_iff`, `cca_still_forever`, `lenia_still_forever`, `nca_still_forever`, `rxn_still_forever`, `random_still`, `random_still_only`, `code_still`, `meta_still`, `meta_still_reset`, `still_growth_iff`, `flow_rest_iff`, `still_trajectory_iff`, `level_still`, `level_tends`.
Refuted by witness (the statement in `properties.jsonl` names the exception): `still_mask_refuted`.
Note: Exact reals. CODE: the inner loop is given enough rounds.

### C118 What the shell commands do to the files

A small shell (lexer with single quotes, pathname expansion) over a file system of paths; every run is followed through the exceptions, comparing the entries before and after; parity of apostrophes by induction.  Status: proved; `Props/`: Shell.lean.

Proved: `rm_png_exact`, `gif_name`, `gif_unreadable`, `gif_touches`, `gif_files`, `gif_twice`, `gif_names_few`, `rm_blank`, `blank_not_made`, `blank_loses`, `commit_words`, `commit_unterminated_iff`, `test_commit_outcome`.
Refuted by witness (the statement in `properties.jsonl` names the exception): `blank_refuted`, `frames_folder_refuted`, `commit_apostrophe_refuted`.
Note: The shell is modelled for the fragment the code uses (blanks, single quotes, the pattern *, rm, rm -r, mkdir -p); `..` and symbolic links are not resolved.

### C119 What the options of a search reach

One function from options and files to the experiment, built from the constructors in their order; inversion of every successful run, and equality of whole results for options that are not read.  Status: proved; `Props/`: Options.lean.

Proved: `first_covar_rxn`, `cppn_size`, `dt_option_unread`, `search_step_size`, `stepper_fixed`, `config_replaces_options`, `config_keeps_options`, `config_over_log`, `log_over_config`, `log_is_rule`, `saved_needs_log`, `saved_needs_log_error`, `saved_log_harmless`, `rxn_options_unread`, `network_options_unread`, `prediction_mode_reach`, `first_covar`, `nca_missing_config`, `universe_log_unread`, `universe_size`, `nca_options`, `config_lookup`, `elite_of_log`.
Refuted by witness (the statement in `properties.jsonl` names the exception): `dt_option_refuted`, `pattern_channels_refuted`.
Note: Devices and the values argparse rejects are left out; nested configs are followed with fuel, statements are about runs that end.

### C120 The spaceships of the pattern library fly

One period run on bit rows by a checked evaluator, lifted to the torus and to all k by translation, counted by a bijection, and carried to the continuous automaton by the C22 error bound.  Status: proved; `Props/`: Zoo.lean.

Proved: `life_ship`, `life_ship_cells`, `ship_flies`, `ship_moves`, `ship_circles`, `stored_rules_load`, `stored_conway_eq`, `stored_morley_eq`, `ship_listed`, `ship_on_page`, `ship_flies_on_page`.
Note: Exact real arithmetic. The arrays and the config entries were copied from the bytes of the .npy files; 64-bit values are exact.

### C121 What the stored configs are and which automata load them

The tables are Lean data checked by kernel evaluation for the few facts used (RuleSound, NetSound); everything about objects, weights and universes is proved generally from those facts.  Status: proved; `Props/`: Stored.lean, StoredWidth.lean.

Proved: `stored_net_arguments`, `stored_rule_loads`, `stored_rule_steps`, `stored_rule_dies`, `stored_lenia`, `stored_lenia_count`, `stored_builtin`, `stored_rule_elsewhere`, `stored_net_in_cca`, `stored_net_loads`, `stored_clone_loads`, `uskate_in_nca`, `uskate_in_rxn`, `zoo_configs`, `zoo_networks`, `zoo_needs_classes`, `raw_forgets`.
Refuted by witness (the statement in `properties.jsonl` names the exception): `stored_net_in_rxn_refuted`, `stored_clone_default_refuted`.
Note: Exact real arithmetic. The entries were copied from the bytes of the .npy files, 32-bit numbers by their decimal names where these are short; the weights of the networks are arbitrary lists of the stored length.

### C122 What the project's own tests establish

Each test is a function to Except, an assertion being a check of a proposition; the function under test is an argument where the theorem says what the test cannot see, and the modelled function where it says that the test passes.  Status: proved; `Props/`: Raises.lean, Tests.lean.

Proved: `test_kwargs_none`, `test_params_none`, `test_get_frame_passes`, `test_configs_blind`, `test_configs_misses`, `test_id_conv_passes`, `test_alive_mask_passes`, `test_alive_mask_blind`, `test_forward_passes`, `test_forward_blind`, `test_set_params_passes`, `test_set_radius_passes`, `test_kernel_configs_passes`, `test_kernel_params_iff`, `test_kernel_params_passes`, `test_configs_nca_iff`, `restore_nca_params`, `restore_only_params`, `test_configs_nca_detects`, `test_set_params_nca`, `test_set_radius_nca`, `test_kwargs_nca`, `test_configs_rxn_iff`, `restore_rxn_params`, `test_set_params_rxn`, `test_equilibrium_passes`, `test_update_blind`, `test_update_passes`, `test_stored_passes`, `test_stored_skipped`, `tested_files`, `test_get_kernel_passes`, `test_laplacian_passes`, `test_generic_kernel_blind`, `test_gaussian_passes`, `test_dogaussian_passes`, `test_mixtures_passes`, `test_log_passes`.
Note: Exact real arithmetic: that the tests pass in single precision is not claimed, nor that the numbers drawn with probability zero do not occur. The tests of devices, plotting and the command line are not modelled here.

### C123 What the entropy maps measure

Slices of the padded grid are shown to be patches of the torus given by integer coordinates; entropies depend on a patch only up to order, so symmetries of the grid become permutations of the patch. Strict bounds by the inequality log x <= x - 1.  Status: proved; `Props/`: EntropyMap.lean.

Proved: `phanes_map`, `phanes_bounds`, `phanes_signs`, `phanes_swap`, `phanes_add`, `phanes_local`, `phanes_four`, `entropy_columns`, `entropy_rows`, `entropy_roll`, `entropy_mean_bounds`, `entropy_flat`, `entropy_std_zero`, `module_map`, `moduleBits_scale`.
Refuted by witness (the statement in `properties.jsonl` names the exception): `integer_map_refuted`, `two_valued_map_refuted`, `phanes_scale_refuted`, `module_small_refuted`, `module_shift_refuted`.
Note: Exact real arithmetic; the entries are not rounded to single precision. Numpy is taken to make one and the same byte of every 0/0 (module function, flat windows). Boolean grids, which the subtraction refuses, and window size 0 are left out.

### C124 What the log of a search and its plots show

The loop with its log is shown to run the loop without it; a relation between lists of generations and log entries composes over generations and seeds. The bound on the band is the inequality of Bhatia and Davis.  Status: proved; `Props/`: Plot.lean.

Proved: `fit_point_summary`, `curves_ordered`, `band_closed`, `single_seed`, `log_survives`, `no_log_directory`, `seeds_accumulate`, `generation_drawn_at`, `plot_figures`, `plot_count`, `plot_stops`, `plot_no_file`, `fitness_figure_points`, `plotted_elite`, `plotted_best`, `plotted_growth`.
Refuted by witness (the statement in `properties.jsonl` names the exception): `band_above_refuted`, `later_seed_refuted`, `repeated_seed_refuted`, `plotted_gaussian_refuted`.
Note: Search without workers; the fitness of an agent depends on generation and parameters only (C83 says when that is so). The log entries kwargs and distribution, which nothing plots, and whether matplotlib accepts the arrays are left out.

### C125 What the tests of masks, seeds, patterns, networks and tasks establish

Each test is a computation; passing is rewritten into a condition on the draws. The bite leaves three quarters of the points since at most 128 of the 256 coordinates lie in an open interval of length 128.  Status: proved; `Props/`: Raises.lean, Tests2.lean, Tests3.lean.

Proved: `test_bite_shape_iff`, `test_shapes_iff`, `test_sums_other_size`, `test_mask_seeds`, `test_seed_one`, `test_mask_shape_passes`, `test_mask_sum_iff`, `test_mask_centre_iff`, `test_mask_blind`, `test_bite_shape_passes`, `test_bite_sum_iff`, `test_bite_sum_passes`, `test_bite_blind`, `test_aperture_passes`, `test_aperture_sum_iff`, `test_aperture_blind`, `test_prep_input_passes`, `queryKwargs_spec`, `test_query_iff`, `test_query_drawn`, `seed_all_both`, `test_seed_passes`, `test_seed_sums`, `test_seed_detects`, `test_patterns_pass`, `test_pattern_iff`, `test_glider_blind`, `test_cppn_iff`, `test_cppn_constant`, `test_rule_action_passes`, `test_glider_step_iff`, `test_clone_passes`, `test_clone_iff`, `test_clone_narrow`, `test_clone_empty`, `test_save_fig_iff`.
Refuted by witness (the statement in `properties.jsonl` names the exception): `test_mask_centre_refuted`.
Note: Real arithmetic. The tests that only look at the type or shape of a result (the other patterns, the plots, the remaining activations) and the tests of the command line are left out; those of the automata are in C122.

### C126 Which homogeneous Gray-Scott universes stand still, and which of them attract

Near a rest point a step is a planar map with trace 2 + dt(k - v^2) and determinant 1 + dt(k - v^2) + dt^2 (f+k)(v^2 - f). A quadratic form built from trace and determinant (Schur-Cohn) changes by a fixed factor per step; at a saddle a cone about the expanding line is kept. The remainders are of second order, and near the point no cell is clamped.  Status: proved; `Props/`: GrayScottRest.lean.

Proved: `rxn_uniform_run`, `uniform_still_iff`, `rest_levels`, `rest_levels_order`, `background_high`, `rest_inside`, `rest_attracts`, `rest_expels`, `rest_unstable`, `rxn_uniform_still`, `rxn_uniform_attracts`, `rxn_uniform_unstable`, `rxn_default_levels`.
Refuted by witness (the statement in `properties.jsonl` names the exception): `background_expels_refuted`.
Note: Exact real arithmetic. Attraction is among homogeneous universes; for all other universes see C128.

### C127 Which homogeneous levels of CCA and Lenia are stable against every pattern

Near the level a step is a linear map plus a remainder of higher order. A balanced kernel makes the map symmetric for the Euclidean inner product on grids, so it has an orthonormal basis of eigenvectors; cosines and sines are eigenvectors, and by the sum over roots of unity no grid is orthogonal to all of them, so there are no further eigenvalues. Attraction follows from the norm, instability from a cone about the eigenvector. A kernel with an entry above its central one has a negative eigenvalue, by its value on the difference of two cells.  Status: proved; `Props/`: LevelObjects.lean, LevelStability.lean, LevelWaves.lean.

Proved: `level_attracts`, `level_unstable`, `level_unstable_mode`, `wave_mode`, `waves_complete`, `mode_gain`, `negative_mode`, `cca_level_stability`, `lenia_level_stability`, `ring_unstable`, `still_levels`, `still_levels_unstable`, `orbium_levels`, `bluntLenia_levels`.
Note: Exact real arithmetic. Levels at which the largest factor is exactly 1 are not decided.

### C128 Which rest points of Gray-Scott automata are stable against every pattern

The two species diffuse differently, so a step is not a symmetric map. A general theorem decides fixed points of maps that are a matrix plus terms of second order: Gelfand's formula bounds the powers of the matrix by the largest eigenvalue, and a discrete Duhamel sum carries this over to the map. A balanced kernel is symmetric on grids, so the parts of an eigenvector in a wave satisfy two linear equations, and since no grid is orthogonal to all waves the eigenvalues are the roots of the quadratics of the waves. For the default parameters the gains lie in [-1, 0] and the three inequalities are polynomial in the gain.  Status: proved; `Props/`: EqualDiff.lean, GrayScottLinear.lean, GrayScottPatterns.lean, GrayScottWaves.lean, Spectral.lean.

Proved: `rxn_patterns_fade`, `rxn_patterns_grow`, `rxn_eigen_wave`, `rxn_wave_eigen`, `rxn_default_patterns`, `equal_diffusion_fades`, `equal_diffusion_turing`, `exchange_gain`, `stripe_gain`, `spectral_attracts`, `spectral_unstable`.
Refuted by witness (the statement in `properties.jsonl` names the exception): `rxn_patterns_refuted`.
Note: Exact real arithmetic. Rest points at which some wave is neither damped nor growing are not decided. rxn_patterns_refuted shows that stability among homogeneous universes does not carry over to patterns.

### C129 What a whole run of clone_from_ca trains on and leaves behind

The two nested best-so-far tests of the training loop are replaced by one fold: the best of the iteration is never below the best overall, so an error that is not a new best of the iteration changes nothing. The fold is then the first least error of the list of all errors measured, and the rest is induction over the configs with the path and the last network carried along.  Status: proved; `Props/`: CloneRun.lean, Raises.lean.

Proved: `clone_bad_kernel`, `clone_run`, `clone_ok_iff`, `fileAfter_iff`, `clone_command`, `clone_defaults`, `clone_display`, `cloneRounds_spec`.
Refuted by witness (the statement in `properties.jsonl` names the exception): `clone_stale_refuted`, `clone_files_refuted`, `clone_default_refuted`.
Note: The errors, the weights and what restoring gives are arguments. clone_stale_refuted, clone_files_refuted and clone_default_refuted are the exceptions in the statement.

### C130 A computed run stays near the exact run, with a bound

The roundings of one cell are followed through a step: the convolutions, the growth functions, the mixing, the mean over channels, the Euler step and the clamp, which does not increase distances. The error of a step is then carried along by the Lipschitz bound of the exact step, which gives a geometric sum. For double precision the error of a sum from left to right is bounded by induction over its terms.  Status: proved; `Props/`: Drift.lean, RandomDrift.lean.

Proved: `cca_drift`, `lenia_drift`, `random_drift`, `random_slip`, `cca_slip`, `lenia_slip`, `drift_vanishes`, `double_represents`, `gaussian_gentle`.
Note: The arithmetic is any that satisfies Spec.Precise; double precision is shown to (Witness.dblPrecise, rounding to 53 bits without a least exponent). The example bounds the first eight steps of the orbium in double precision by 1/100, and the first five with random step sizes.

### C131 What the conditional entropies of a grid measure

The list of pairs is turned into counts over the torus; a step around the torus is a bijection, so cells and neighbours have the same counts, and the table of the opposite direction is the transposed table. Without eps the value splits into a sum over the table and a sum over its columns, both symmetric; eps moves it by at most 256e-9/ln 2. The order of the two witnesses is decided by comparing two integers of about 3700 bits.  Status: proved; `Props/`: Conditional.lean.

Proved: `conditional_value`, `conditional_raises`, `conditional_range`, `conditional_opposite`, `conditional_turn`, `conditional_swap`, `conditional_affine`, `conditional_flat`, `multiconditional_value`, `multiconditional_two`, `multiconditional_turn`.
Refuted by witness (the statement in `properties.jsonl` names the exception): `conditional_order_refuted`.
Note: The byte numpy makes of 0/0 in flat grids is a parameter. The order by disorder is refuted with two rows of four cells.

### C132 What the step-size notebook shows

The strips of the centre of mass are slices with Python's negative indices; the sums over the moved pattern are matched by a bijection of its live cells. The loops are proved once for an abstract automaton whose step depends on its step size and grid only and which adds the step size to its clock, and CCA and Lenia are shown to be such automata; the number of steps of a loop is the ceiling of the remaining time over the step size. CODE uses the contract of C24.  Status: proved; `Props/`: StepFrames.lean, StepLoops.lean, StepNotebook.lean, StepPrompts.lean.

Proved: `com_exact`, `com_none_iff`, `com_in_grid`, `com_moves`, `com_cut`, `choose_pattern`, `choose_default`, `prompt_clip`, `place_centred`, `place_errors`, `place_shipped`, `fig_frames`, `fig_titles`, `run_until`, `run_until_raises`, `run_until_diverges`, `one_frame`, `all_frames`, `in_step_close`, `track_until`, `cca_ticks`, `lenia_ticks`, `cca_runs_iterate`, `update_single`, `single_frames`, `prompt_ready`, `prompt_settings`, `prompt_ends`, `prompt_default`.
Refuted by witness (the statement in `properties.jsonl` names the exception): `com_crossing_refuted`, `com_corner_refuted`, `choose_beyond_refuted`, `fig_title_refuted`, `prompt_min_refuted`.
Note: The class CA of the notebook is in a module this version does not contain; the loops are proved for every automaton that ticks, among them CCA and Lenia. Drawing is left out.

### C133 Which Life-like rules Lenia can run

A kernel without weight on the cell makes the update independent of the cell, so one step is monotone in it; two grids that differ only in a cell with a count of B outside S then contradict the rule. The positive parts invert the count from the neighbourhood value; the error bounds reuse the leakage of interval edges from C22.  Status: proved; `Props/`: LeniaLife.lean, MorleyNotebook.lean.

Proved: `lenia_monotone`, `lenia_rule_iff`, `lenia_rule_forever`, `lenia_heavy_forever`, `nbUpdateFn_life`, `morley_lenia`, `morley_lenia_iff`, `morleyGlaberish_step`, `morley_glaberish`, `morley_lenia_still`, `morley_moves`.
Refuted by witness (the statement in `properties.jsonl` names the exception): `lenia_rule_refuted`, `lenia_morley_refuted`.
Note: The import cell of the notebook names a module this version does not contain; the two cells are read with the CCA it has become.

### C134 A pattern stored with its rule can be replayed

Composes the config round trip (C31), the metadata round trip of the librarian and the light-cone theorem for figures; the clock is shown to be carried along by every step without being read.  Status: proved; `Props/`: Replay.lean.

Proved: `npSaved_eq`, `save_read`, `save_others`, `save_default`, `save_restore`, `stored_rule`, `replay_clock`, `stored_replays`.
Refuted by witness (the statement in `properties.jsonl` names the exception): `save_bare_refuted`, `save_shadowed_refuted`.
Note: Exceptions save_bare_refuted and save_shadowed_refuted.

### C135 What the figures of two notebooks show

The loops of the notebooks are folds; invariants over the rounds give the picture cell by cell and the measurement lists in closed form. The Life-like run behind the figures is the one of C133.  Status: proved; `Props/`: FigurePictures.lean, FigureStatistics.lean, Figures.lean, Tests3.lean.

Proved: `plot4x4_short`, `timelapse_panel`, `timelapse_lines`, `timelapse_notes`, `timelapse_morley`, `half_lenia`, `puffer_still_lenia`, `stat_records`, `stat_short`, `plot_steps`, `plot_grows`, `stat_512`, `message_value`, `norm_means`, `gamma_runs`, `gamma_own_iff`, `baseline_curve`, `plot4x4_panels`, `frame4x4_panels`, `frame4x4_hidden`, `plot4x4_shows`, `frame_not_colab`, `game_round`, `game_dead`, `correct_count`, `played_eq`, `findConfig_root`, `halting_found`, `halting_missing`.
Refuted by witness (the statement in `properties.jsonl` names the exception): `message_refuted`, `game_refuted`.
Note: Exceptions message_refuted, plot_steps, plot_grows, gamma_own_iff, frame4x4_hidden, game_refuted and halting_missing. The notebooks import CA from a module that is not in the repository; an automaton is any map on grids.

### C136 What the glider and entropy animations show

Frames are iterates of one function on the state of a panel; closed forms by induction on the frames. The line of a glider composes moves and uses the centre-of-mass theorem of C132.  Status: proved; `Props/`: GliderFigures.lean.

Proved: `glider_frames`, `glider_hidden`, `track_points`, `glider_drawn`, `glider_never_fades`, `still_first`, `still_others`, `entropy_frames`, `entropy_age`, `moved_trans`, `glider_line`, `teaser_ok_iff`, `teaser_cells`, `square_cells`, `glider_rules`.
Refuted by witness (the statement in `properties.jsonl` names the exception): `still_refuted`, `entropy_refuted`.
Note: Exceptions glider_never_fades, still_refuted and entropy_refuted. The notebooks import CA from a module that is not in the repository; an automaton is any map on grids.

### C137 Config files of neural and Gray-Scott automata

One file system of dictionaries with optional entries for all three classes. The round trips reuse C34, C65 and C111; divergence is by induction on the fuel of the constructor.  Status: proved; `Props/`: SaveFiles.lean.

Proved: `file_saved`, `rxn_save_restore`, `nca_save_restore`, `rxn_file_in_nca`, `other_file_in_cca`, `cca_file_elsewhere`.
Refuted by witness (the statement in `properties.jsonl` names the exception): `file_bare_refuted`, `nca_save_over_refuted`, `nca_file_in_rxn_refuted`.
Note: Exceptions file_bare_refuted, nca_save_over_refuted and nca_file_in_rxn_refuted. The alive threshold and dropout rate are among the stored arguments but not part of the model of the constructor; the step function is compared for every threshold.

### C138 With small steps a run loses nothing but what it clips

The step is the identity plus a contraction: the cell with the largest difference shows what a step leaves, and the past is the fixed point of a contraction of the universes in [0,1] (Banach).  Status: proved; `Props/`: Past.lean.

Proved: `cca_apart`, `cca_past`, `lenia_apart`, `lenia_past`, `random_past`, `rxn_past`, `rxn_never_gone`, `nca_past`.
Refuted by witness (the statement in `properties.jsonl` names the exception): `merge_refuted`, `clip_refuted`.
Note: Exceptions merge_refuted and clip_refuted. The bounds M and L are those of C100, and C106 for Gray-Scott and neural automata.

### C139 What the activations do that no automaton uses

Cases on the number of channels; each cell rewritten to the gaussian of the other claims; monotonicity of the exponential.  Status: proved; `Props/`: Unused.lean.

Proved: `stepsFn_eq`, `metaMixture_takes`, `metaMixture_cell`, `metaMixture_values`, `metaMixture_order`, `metaMixture_reads`, `perSlice_cellwise`, `metaMixture_no_growth`, `unused_not_named`.
Note: Exact real arithmetic. perSlice_cellwise ties genesis and persistence for modules on tensors to the cell-by-cell reading of the other claims.

### C140 The points of the plotted growth functions

Doubles rounded to nearest even; the relative error of each operation added up; the two divisions computed exactly for the default ranges.  Status: proved; `Props/`: KernelPlot.lean.

Proved: `growth_points`, `plot_even`, `plotPoints_length`, `plot_growth_raises`, `plot_growth_curve`, `plot_growth_near`, `plot_growth_default`, `plot_growth_notebook`, `plot_growth_default_near`, `plot_genper_raises`, `plot_genper_curves`, `plot_genper_combined`, `plot_genper_sum`.
Refuted by witness (the statement in `properties.jsonl` names the exception): `plot_growth_extra_refuted`.
Note: Exception plot_growth_extra_refuted. Images, colours and ticks are not modelled; numpy fills an arange from its first two elements.
