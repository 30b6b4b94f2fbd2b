{
 "claims": [
  {
   "property": "C01",
   "status": "proved",
   "theorems": [
    "Yuca.base_range",
    "Yuca.cca_range",
    "Yuca.lenia_range",
    "Yuca.nca_range",
    "Yuca.randomStep_range",
    "Yuca.meta_range",
    "Yuca.code_range",
    "Yuca.rxn_range"
   ],
   "note": "Any rounding arithmetic; only the comparisons of 0 and 1 are assumed."
  },
  {
   "property": "C02",
   "status": "proved",
   "theorems": [
    "Yuca.cca_roll",
    "Yuca.lenia_roll",
    "Yuca.base_roll",
    "Yuca.rxn_roll",
    "Yuca.nca_roll",
    "Yuca.code_roll",
    "Yuca.randomStep_roll",
    "Yuca.meta_roll",
    "Yuca.roll_zeros_refuted",
    "Yuca.randomSteps_roll",
    "Yuca.codeSteps_roll"
   ],
   "note": "Bit-for-bit, any rounding; failure with zero padding by witness."
  },
  {
   "property": "C03",
   "status": "proved",
   "theorems": [
    "Yuca.cca_local",
    "Yuca.lenia_local",
    "Yuca.rxn_local",
    "Yuca.nca_local",
    "Yuca.code_local_refuted",
    "Yuca.base_local",
    "Yuca.randomSteps_local",
    "Yuca.meta_local"
   ],
   "note": "Holds for the fixed-step automata; CODE refuted by a witness."
  },
  {
   "property": "C04",
   "status": "proved",
   "theorems": [
    "Yuca.cca_frame_eq_forward",
    "Yuca.cca_frame0_eq_forward",
    "Yuca.lenia_frame_eq_forward",
    "Yuca.nca_frame_eq_forward",
    "Yuca.rxn_frame_eq_forward",
    "Yuca.cca_frame_four_refuted",
    "Yuca.meta_frame_refuted"
   ],
   "note": ""
  },
  {
   "property": "C05",
   "status": "proved",
   "theorems": [
    "Yuca.clock_time",
    "Yuca.cca_time",
    "Yuca.lenia_time",
    "Yuca.nca_time",
    "Yuca.rxn_time",
    "Yuca.randomStep_time",
    "Yuca.code_time",
    "Yuca.cca_time_const",
    "Yuca.meta_no_time"
   ],
   "note": ""
  },
  {
   "property": "C06",
   "status": "proved",
   "theorems": [
    "Yuca.mask_cell",
    "Yuca.mask_real",
    "Yuca.mask_idem",
    "Yuca.mask_small"
   ],
   "note": ""
  },
  {
   "property": "C07",
   "status": "proved",
   "theorems": [
    "Yuca.cca_member",
    "Yuca.lenia_member",
    "Yuca.rxn_member",
    "Yuca.nca_member",
    "Yuca.code_member_refuted",
    "Yuca.base_member",
    "Yuca.randomSteps_member",
    "Yuca.meta_member",
    "Yuca.meta_member_reset",
    "Yuca.code_member_cell_refuted"
   ],
   "note": ""
  },
  {
   "property": "C08",
   "status": "proved",
   "theorems": [
    "Yuca.identity_copies",
    "Yuca.identity_mixes"
   ],
   "note": "Exact arithmetic, every padding mode."
  },
  {
   "property": "C09",
   "status": "proved",
   "theorems": [
    "Yuca.lenia_is_cca"
   ],
   "note": "Exact arithmetic."
  },
  {
   "property": "C10",
   "status": "proved",
   "theorems": [
    "Yuca.dead_fixed_iff",
    "Yuca.cca_dead_stays",
    "Yuca.lenia_dead_stays",
    "Yuca.cca_dead_revives"
   ],
   "note": "Functional (linear) weight layer, the only one with growth functions."
  },
  {
   "property": "C100",
   "status": "proved",
   "theorems": [
    "Yuca.cca_sensitivity",
    "Yuca.cca_noise",
    "Yuca.cca_follows",
    "Yuca.lenia_follows",
    "Yuca.random_follows",
    "Yuca.code_follows",
    "Yuca.cca_limit",
    "Yuca.trajectory_facts",
    "Yuca.trajectory_deriv",
    "Yuca.act_mild",
    "Yuca.gaussian_mild",
    "Yuca.radial_mild",
    "Yuca.code_accepts",
    "Yuca.code_step_large",
    "Yuca.mask_jump_refuted"
   ],
   "note": "Over exact reals, on the torus, with the identity layer and without sequential weights."
  },
  {
   "property": "C101",
   "status": "proved",
   "theorems": [
    "Yuca.cca_blind",
    "Yuca.lenia_blind",
    "Yuca.rxn_blind",
    "Yuca.nca_blind",
    "Yuca.meta_blind",
    "Yuca.drawn_blind",
    "Yuca.blind_repeats",
    "Yuca.blind_figure",
    "Yuca.blind_background",
    "Yuca.coded_matched",
    "Yuca.coded_repeats",
    "Yuca.coded_figure",
    "Yuca.figure_room_refuted",
    "Yuca.zeros_blind_refuted"
   ],
   "note": "Lawless arithmetic: a cell is computed in the same way on every torus."
  },
  {
   "property": "C102",
   "status": "proved",
   "theorems": [
    "Yuca.neighborhood_taken",
    "Yuca.identity_taken",
    "Yuca.three_axes_rejected",
    "Yuca.neighborhood_layer",
    "Yuca.identity_layer",
    "Yuca.default_identity_layer",
    "Yuca.refused_kernel_used",
    "Yuca.rxn_kernels"
   ],
   "note": "Tensors of any rank; reshape and broadcasting as torch does them."
  },
  {
   "property": "C103",
   "status": "proved",
   "theorems": [
    "Yuca.rxn_mass",
    "Yuca.rxn_extinction",
    "Yuca.rxn_comes_to_rest",
    "Yuca.rxn_threshold",
    "Yuca.default_exchanges",
    "Yuca.rxn_default_resolved",
    "Yuca.rxn_default_extinction"
   ],
   "note": "Exact real arithmetic."
  },
  {
   "property": "C104",
   "status": "proved",
   "theorems": [
    "Yuca.cca_dies",
    "Yuca.lenia_dies",
    "Yuca.random_dies",
    "Yuca.code_dies",
    "Yuca.lenia_window",
    "Yuca.orbium_dies",
    "Yuca.geminium_dies",
    "Yuca.orbium_grows"
   ],
   "note": "Exact real arithmetic."
  },
  {
   "property": "C105",
   "status": "proved",
   "theorems": [
    "Yuca.launch_variable",
    "Yuca.launch_command",
    "Yuca.launch_env",
    "Yuca.launch_threads_refuted",
    "Yuca.crew_started",
    "Yuca.launchers_started",
    "Yuca.search_started",
    "Yuca.serial_started",
    "Yuca.team_jobs",
    "Yuca.serial_jobs",
    "Yuca.one_worker_refuted",
    "Yuca.negative_workers_refuted",
    "Yuca.stale_mark_refuted",
    "Yuca.wrong_size_refuted",
    "Yuca.started_by_hand_refuted"
   ],
   "note": "mpirun is modelled as far as the command goes that mpi_fork builds."
  },
  {
   "property": "C106",
   "status": "proved",
   "theorems": [
    "Yuca.grayScott_tame",
    "Yuca.network_tame",
    "Yuca.euler_limit",
    "Yuca.rxn_follows",
    "Yuca.rxn_limit",
    "Yuca.rxn_trajectory",
    "Yuca.rxn_flow_extinction",
    "Yuca.nca_follows",
    "Yuca.nca_limit",
    "Yuca.nca_trajectory",
    "Yuca.activations_slope",
    "Yuca.cca_flow_dies"
   ],
   "note": "Exact real arithmetic."
  },
  {
   "property": "C107",
   "status": "proved",
   "theorems": [
    "Yuca.automata_fair",
    "Yuca.automata_fairSquare",
    "Yuca.half_turn_stays",
    "Yuca.half_turn_jumps",
    "Yuca.mirror_moves_along",
    "Yuca.diagonal_moves_along",
    "Yuca.half_turn_jump_refuted",
    "Yuca.lopsided_glides_refuted"
   ],
   "note": "Exact real arithmetic."
  },
  {
   "property": "C108",
   "status": "proved",
   "theorems": [
    "Yuca.update_ranking_only",
    "Yuca.runGens_ranking_prefix",
    "Yuca.runGens_ranking_only",
    "Yuca.runSeed_ranking_only",
    "Yuca.rescaling_reward",
    "Yuca.shifting_reward",
    "Yuca.scaling_reward_refuted",
    "Yuca.Coord.update_frame",
    "Yuca.Coord.runGens_frame",
    "Yuca.Coord.runSeed_frame",
    "Yuca.params_frame",
    "Yuca.cppn_frame",
    "Yuca.pattern_start_isotropic",
    "Yuca.universe_start_isotropic_refuted"
   ],
   "note": "Exact real arithmetic; np.argsort and the draws are arguments."
  },
  {
   "property": "C109",
   "status": "proved",
   "theorems": [
    "Yuca.cca_recurs",
    "Yuca.lenia_recurs",
    "Yuca.nca_recurs",
    "Yuca.base_recurs",
    "Yuca.rxn_recurs",
    "Yuca.meta_recurs",
    "Yuca.code_recurs",
    "Yuca.code_hangs_iff",
    "Yuca.Spec.EndsInCycle.happens",
    "Yuca.Spec.EndsInCycle.always",
    "Yuca.Spec.EndsInCycle.recurs",
    "Yuca.cca_eden",
    "Yuca.exact_recurs_refuted"
   ],
   "note": "Any finite carrier; a convolution is taken to be a deterministic function of its inputs."
  },
  {
   "property": "C11",
   "status": "proved",
   "theorems": [
    "Yuca.rollout_lossless",
    "Yuca.cca_rollout_lossless",
    "Yuca.rollout_lossless_refuted"
   ],
   "note": "Exact arithmetic; the exception by a witness."
  },
  {
   "property": "C110",
   "status": "proved",
   "theorems": [
    "Yuca.runs_tend",
    "Yuca.kernel_tends",
    "Yuca.params_continuous",
    "Yuca.lenia_params_continuous",
    "Yuca.rxn_runs_tend",
    "Yuca.nca_runs_tend",
    "Yuca.params_jump_refuted"
   ],
   "note": "Exact reals; functional update on the torus with the default identity kernel."
  },
  {
   "property": "C111",
   "status": "proved",
   "theorems": [
    "Yuca.saved_activation",
    "Yuca.unknown_activation",
    "Yuca.network_params_length",
    "Yuca.network_layout",
    "Yuca.network_reload",
    "Yuca.fresh_never_shrinks",
    "Yuca.lit_fills",
    "Yuca.fresh_fills",
    "Yuca.empty_stays_empty",
    "Yuca.empty_lights_up",
    "Yuca.default_network",
    "Yuca.default_fills",
    "Yuca.run_exists",
    "Yuca.saved_activation_name"
   ],
   "note": "Exact reals; a sequence of masks stands for dropout."
  },
  {
   "property": "C112",
   "status": "proved",
   "theorems": [
    "Yuca.noGrad_quiet",
    "Yuca.toDevice_quiet",
    "Yuca.setParams_quiet",
    "Yuca.lenia_setParams_quiet",
    "Yuca.include_registers",
    "Yuca.construct_grad",
    "Yuca.construct_quiet",
    "Yuca.load_quiet",
    "Yuca.use_grad_with_config_refuted",
    "Yuca.load_leaves_stale",
    "Yuca.calls_quiet",
    "Yuca.nca_switches",
    "Yuca.rxn_registered_copies",
    "Yuca.rxn_registry_stale_refuted"
   ],
   "note": "Parameters as identities with a flag; values left out for CCA and NCA."
  },
  {
   "property": "C113",
   "status": "proved",
   "theorems": [
    "Yuca.same_growth_same_step",
    "Yuca.internal_average",
    "Yuca.internal_order",
    "Yuca.peaks_order",
    "Yuca.width_mirror",
    "Yuca.weights_and_dt",
    "Yuca.layers_trade",
    "Yuca.meta_gears",
    "Yuca.dual_step",
    "Yuca.dual_dual",
    "Yuca.dual_run"
   ],
   "note": "Exact reals."
  },
  {
   "property": "C114",
   "status": "proved",
   "theorems": [
    "Yuca.padRead_extends",
    "Yuca.extends_exists",
    "Yuca.padFits_iff",
    "Yuca.cca_wall_rule",
    "Yuca.lenia_wall_rule",
    "Yuca.rxn_wall_rule",
    "Yuca.cca_wall_symmetry",
    "Yuca.lenia_wall_symmetry",
    "Yuca.rxn_wall_symmetry",
    "Yuca.nca_wall_symmetry",
    "Yuca.cca_mirror_run",
    "Yuca.lenia_mirror_run",
    "Yuca.rxn_mirror_run",
    "Yuca.nca_mirror_run",
    "Yuca.cca_far_from_walls",
    "Yuca.lenia_far_from_walls",
    "Yuca.rxn_far_from_walls",
    "Yuca.nca_far_from_walls",
    "Yuca.cca_const_walls",
    "Yuca.lenia_const_walls",
    "Yuca.rxn_const_walls",
    "Yuca.nca_const_walls",
    "Yuca.const_zeros_refuted",
    "Yuca.roll_walls_refuted"
   ],
   "note": "Closed-form rules for CCA in functional mode, Lenia and Gray-Scott over exact reals."
  },
  {
   "property": "C115",
   "status": "proved",
   "theorems": [
    "Yuca.cfg_gaussian",
    "Yuca.cfg_doGaussian",
    "Yuca.cfg_doubleGaussian",
    "Yuca.cfg_doubleGaussian_numbers",
    "Yuca.cfg_mixture_default",
    "Yuca.cfg_mixture_triples",
    "Yuca.cfg_mixture_pairs",
    "Yuca.cfg_mixture_odd",
    "Yuca.cfg_polynomial",
    "Yuca.cfg_smoothIntervals",
    "Yuca.cfg_plain",
    "Yuca.cfg_unknown",
    "Yuca.kernel_reads",
    "Yuca.kernel_order",
    "Yuca.kernel_params_order_refuted",
    "Yuca.kernel_arguments",
    "Yuca.kernel_tensor",
    "Yuca.kernel_tensor_params",
    "Yuca.instant_defaults",
    "Yuca.dynamics_instant"
   ],
   "note": "Exact reals."
  },
  {
   "property": "C116",
   "status": "proved",
   "theorems": [
    "Yuca.clockLoop_ends",
    "Yuca.random_until",
    "Yuca.code_until",
    "Yuca.random_demo",
    "Yuca.orbium_rows",
    "Yuca.code_demo_steps",
    "Yuca.meta_round",
    "Yuca.keywords_iff",
    "Yuca.code_demo",
    "Yuca.random_demo_extremes",
    "Yuca.meta_demo_refuted",
    "Yuca.meta_demo_unpack_refuted",
    "Yuca.orbium_table",
    "Yuca.pattern_tables",
    "Yuca.lenia_demo_start"
   ],
   "note": "Exact reals for the loops; the inner loop of CODE is given enough rounds."
  },
  {
   "property": "C117",
   "status": "proved",
   "theorems": [
    "Yuca.clip_rest_iff",
    "Yuca.alive_unmasked",
    "Yuca.cca_still_iff",
    "Yuca.lenia_still_iff",
    "Yuca.nca_still_iff",
    "Yuca.rxn_still_iff",
    "Yuca.cca_still_forever",
    "Yuca.lenia_still_forever",
    "Yuca.nca_still_forever",
    "Yuca.rxn_still_forever",
    "Yuca.random_still",
    "Yuca.random_still_only",
    "Yuca.code_still",
    "Yuca.meta_still",
    "Yuca.meta_still_reset",
    "Yuca.still_growth_iff",
    "Yuca.flow_rest_iff",
    "Yuca.still_trajectory_iff",
    "Yuca.level_still",
    "Yuca.level_tends",
    "Yuca.still_mask_refuted"
   ],
   "note": "Exact reals. CODE: the inner loop is given enough rounds."
  },
  {
   "property": "C118",
   "status": "proved",
   "theorems": [
    "Yuca.rm_png_exact",
    "Yuca.gif_name",
    "Yuca.gif_unreadable",
    "Yuca.gif_touches",
    "Yuca.gif_files",
    "Yuca.gif_twice",
    "Yuca.gif_names_few",
    "Yuca.rm_blank",
    "Yuca.blank_not_made",
    "Yuca.blank_loses",
    "Yuca.blank_refuted",
    "Yuca.frames_folder_refuted",
    "Yuca.commit_words",
    "Yuca.commit_unterminated_iff",
    "Yuca.commit_apostrophe_refuted",
    "Yuca.test_commit_outcome"
   ],
   "note": "The shell is modelled for the fragment the code uses (blanks, single quotes, the pattern *, rm, rm -r, mkdir -p); `..` and symbolic links are not resolved."
  },
  {
   "property": "C119",
   "status": "proved",
   "theorems": [
    "Yuca.first_covar_rxn",
    "Yuca.cppn_size",
    "Yuca.dt_option_unread",
    "Yuca.search_step_size",
    "Yuca.dt_option_refuted",
    "Yuca.stepper_fixed",
    "Yuca.config_replaces_options",
    "Yuca.config_keeps_options",
    "Yuca.config_over_log",
    "Yuca.log_over_config",
    "Yuca.log_is_rule",
    "Yuca.saved_needs_log",
    "Yuca.saved_needs_log_error",
    "Yuca.saved_log_harmless",
    "Yuca.rxn_options_unread",
    "Yuca.network_options_unread",
    "Yuca.prediction_mode_reach",
    "Yuca.first_covar",
    "Yuca.pattern_channels_refuted",
    "Yuca.nca_missing_config",
    "Yuca.universe_log_unread",
    "Yuca.universe_size",
    "Yuca.nca_options",
    "Yuca.config_lookup",
    "Yuca.elite_of_log"
   ],
   "note": "Devices and the values argparse rejects are left out; nested configs are followed with fuel, statements are about runs that end."
  },
  {
   "property": "C12",
   "status": "proved",
   "theorems": [
    "Yuca.cca_step_bound",
    "Yuca.cca_drift_bound",
    "Yuca.nca_step_bound"
   ],
   "note": ""
  },
  {
   "property": "C120",
   "status": "proved",
   "theorems": [
    "Yuca.life_ship",
    "Yuca.life_ship_cells",
    "Yuca.ship_flies",
    "Yuca.ship_moves",
    "Yuca.ship_circles",
    "Yuca.stored_rules_load",
    "Yuca.stored_conway_eq",
    "Yuca.stored_morley_eq",
    "Yuca.ship_listed",
    "Yuca.ship_on_page",
    "Yuca.ship_flies_on_page"
   ],
   "note": "Exact real arithmetic. The arrays and the config entries were copied from the bytes of the .npy files; 64-bit values are exact."
  },
  {
   "property": "C121",
   "status": "proved",
   "theorems": [
    "Yuca.stored_net_arguments",
    "Yuca.stored_rule_loads",
    "Yuca.stored_rule_steps",
    "Yuca.stored_rule_dies",
    "Yuca.stored_lenia",
    "Yuca.stored_lenia_count",
    "Yuca.stored_builtin",
    "Yuca.stored_rule_elsewhere",
    "Yuca.stored_net_in_cca",
    "Yuca.stored_net_in_rxn_refuted",
    "Yuca.stored_net_loads",
    "Yuca.stored_clone_loads",
    "Yuca.stored_clone_default_refuted",
    "Yuca.uskate_in_nca",
    "Yuca.uskate_in_rxn",
    "Yuca.zoo_configs",
    "Yuca.zoo_networks",
    "Yuca.zoo_needs_classes",
    "Yuca.raw_forgets"
   ],
   "note": "Exact real arithmetic. The entries were copied from the bytes of the .npy files, 32-bit numbers by their decimal names where these are short; the weights of the networks are arbitrary lists of the stored length."
  },
  {
   "property": "C122",
   "status": "proved",
   "theorems": [
    "Yuca.test_kwargs_none",
    "Yuca.test_params_none",
    "Yuca.test_get_frame_passes",
    "Yuca.test_configs_blind",
    "Yuca.test_configs_misses",
    "Yuca.test_id_conv_passes",
    "Yuca.test_alive_mask_passes",
    "Yuca.test_alive_mask_blind",
    "Yuca.test_forward_passes",
    "Yuca.test_forward_blind",
    "Yuca.test_set_params_passes",
    "Yuca.test_set_radius_passes",
    "Yuca.test_kernel_configs_passes",
    "Yuca.test_kernel_params_iff",
    "Yuca.test_kernel_params_passes",
    "Yuca.test_configs_nca_iff",
    "Yuca.restore_nca_params",
    "Yuca.restore_only_params",
    "Yuca.test_configs_nca_detects",
    "Yuca.test_set_params_nca",
    "Yuca.test_set_radius_nca",
    "Yuca.test_kwargs_nca",
    "Yuca.test_configs_rxn_iff",
    "Yuca.restore_rxn_params",
    "Yuca.test_set_params_rxn",
    "Yuca.test_equilibrium_passes",
    "Yuca.test_update_blind",
    "Yuca.test_update_passes",
    "Yuca.test_stored_passes",
    "Yuca.test_stored_skipped",
    "Yuca.tested_files",
    "Yuca.test_get_kernel_passes",
    "Yuca.test_laplacian_passes",
    "Yuca.test_generic_kernel_blind",
    "Yuca.test_gaussian_passes",
    "Yuca.test_dogaussian_passes",
    "Yuca.test_mixtures_passes",
    "Yuca.test_log_passes"
   ],
   "note": "Exact real arithmetic: that the tests pass in single precision is not claimed, nor that the numbers drawn with probability zero do not occur. The tests of devices, plotting and the command line are not modelled here."
  },
  {
   "property": "C123",
   "status": "proved",
   "theorems": [
    "Yuca.phanes_map",
    "Yuca.phanes_bounds",
    "Yuca.phanes_signs",
    "Yuca.phanes_swap",
    "Yuca.phanes_add",
    "Yuca.phanes_local",
    "Yuca.phanes_four",
    "Yuca.entropy_columns",
    "Yuca.entropy_rows",
    "Yuca.entropy_roll",
    "Yuca.entropy_mean_bounds",
    "Yuca.entropy_flat",
    "Yuca.entropy_std_zero",
    "Yuca.integer_map_refuted",
    "Yuca.two_valued_map_refuted",
    "Yuca.phanes_scale_refuted",
    "Yuca.module_map",
    "Yuca.module_small_refuted",
    "Yuca.module_shift_refuted",
    "Yuca.moduleBits_scale"
   ],
   "note": "Exact real arithmetic; the entries are not rounded to single precision. Numpy is taken to make one and the same byte of every 0/0 (module function, flat windows). Boolean grids, which the subtraction refuses, and window size 0 are left out."
  },
  {
   "property": "C124",
   "status": "proved",
   "theorems": [
    "Yuca.fit_point_summary",
    "Yuca.curves_ordered",
    "Yuca.band_closed",
    "Yuca.band_above_refuted",
    "Yuca.single_seed",
    "Yuca.log_survives",
    "Yuca.no_log_directory",
    "Yuca.seeds_accumulate",
    "Yuca.later_seed_refuted",
    "Yuca.generation_drawn_at",
    "Yuca.repeated_seed_refuted",
    "Yuca.plot_figures",
    "Yuca.plot_count",
    "Yuca.plot_stops",
    "Yuca.plot_no_file",
    "Yuca.fitness_figure_points",
    "Yuca.plotted_elite",
    "Yuca.plotted_best",
    "Yuca.plotted_growth",
    "Yuca.plotted_gaussian_refuted"
   ],
   "note": "Search without workers; the fitness of an agent depends on generation and parameters only (C83 says when that is so). The log entries kwargs and distribution, which nothing plots, and whether matplotlib accepts the arrays are left out."
  },
  {
   "property": "C125",
   "status": "proved",
   "theorems": [
    "Yuca.test_bite_shape_iff",
    "Yuca.test_shapes_iff",
    "Yuca.test_sums_other_size",
    "Yuca.test_mask_seeds",
    "Yuca.test_seed_one",
    "Yuca.test_mask_shape_passes",
    "Yuca.test_mask_sum_iff",
    "Yuca.test_mask_centre_iff",
    "Yuca.test_mask_centre_refuted",
    "Yuca.test_mask_blind",
    "Yuca.test_bite_shape_passes",
    "Yuca.test_bite_sum_iff",
    "Yuca.test_bite_sum_passes",
    "Yuca.test_bite_blind",
    "Yuca.test_aperture_passes",
    "Yuca.test_aperture_sum_iff",
    "Yuca.test_aperture_blind",
    "Yuca.test_prep_input_passes",
    "Yuca.queryKwargs_spec",
    "Yuca.test_query_iff",
    "Yuca.test_query_drawn",
    "Yuca.seed_all_both",
    "Yuca.test_seed_passes",
    "Yuca.test_seed_sums",
    "Yuca.test_seed_detects",
    "Yuca.test_patterns_pass",
    "Yuca.test_pattern_iff",
    "Yuca.test_glider_blind",
    "Yuca.test_cppn_iff",
    "Yuca.test_cppn_constant",
    "Yuca.test_rule_action_passes",
    "Yuca.test_glider_step_iff",
    "Yuca.test_clone_passes",
    "Yuca.test_clone_iff",
    "Yuca.test_clone_narrow",
    "Yuca.test_clone_empty",
    "Yuca.test_save_fig_iff"
   ],
   "note": "Real arithmetic. The tests that only look at the type or shape of a result (the other patterns, the plots, the remaining activations) and the tests of the command line are left out; those of the automata are in C122."
  },
  {
   "property": "C126",
   "status": "proved",
   "theorems": [
    "Yuca.rxn_uniform_run",
    "Yuca.uniform_still_iff",
    "Yuca.rest_levels",
    "Yuca.rest_levels_order",
    "Yuca.background_high",
    "Yuca.rest_inside",
    "Yuca.rest_attracts",
    "Yuca.rest_expels",
    "Yuca.rest_unstable",
    "Yuca.rxn_uniform_still",
    "Yuca.rxn_uniform_attracts",
    "Yuca.rxn_uniform_unstable",
    "Yuca.rxn_default_levels",
    "Yuca.background_expels_refuted"
   ],
   "note": "Exact real arithmetic. Attraction is among homogeneous universes; for all other universes see C128."
  },
  {
   "property": "C127",
   "status": "proved",
   "theorems": [
    "Yuca.level_attracts",
    "Yuca.level_unstable",
    "Yuca.level_unstable_mode",
    "Yuca.wave_mode",
    "Yuca.waves_complete",
    "Yuca.mode_gain",
    "Yuca.negative_mode",
    "Yuca.cca_level_stability",
    "Yuca.lenia_level_stability",
    "Yuca.ring_unstable",
    "Yuca.still_levels",
    "Yuca.still_levels_unstable",
    "Yuca.orbium_levels",
    "Yuca.bluntLenia_levels"
   ],
   "note": "Exact real arithmetic. Levels at which the largest factor is exactly 1 are not decided."
  },
  {
   "property": "C128",
   "status": "proved",
   "theorems": [
    "Yuca.rxn_patterns_fade",
    "Yuca.rxn_patterns_grow",
    "Yuca.rxn_eigen_wave",
    "Yuca.rxn_wave_eigen",
    "Yuca.rxn_default_patterns",
    "Yuca.rxn_patterns_refuted",
    "Yuca.equal_diffusion_fades",
    "Yuca.equal_diffusion_turing",
    "Yuca.exchange_gain",
    "Yuca.stripe_gain",
    "Yuca.spectral_attracts",
    "Yuca.spectral_unstable"
   ],
   "note": "Exact real arithmetic. Rest points at which some wave is neither damped nor growing are not decided. rxn_patterns_refuted shows that stability among homogeneous universes does not carry over to patterns."
  },
  {
   "property": "C129",
   "status": "proved",
   "theorems": [
    "Yuca.clone_bad_kernel",
    "Yuca.clone_run",
    "Yuca.clone_ok_iff",
    "Yuca.fileAfter_iff",
    "Yuca.clone_command",
    "Yuca.clone_defaults",
    "Yuca.clone_display",
    "Yuca.clone_stale_refuted",
    "Yuca.clone_files_refuted",
    "Yuca.clone_default_refuted",
    "Yuca.cloneRounds_spec"
   ],
   "note": "The errors, the weights and what restoring gives are arguments. clone_stale_refuted, clone_files_refuted and clone_default_refuted are the exceptions in the statement."
  },
  {
   "property": "C13",
   "status": "proved",
   "theorems": [
    "Yuca.cca_homogeneous",
    "Yuca.lenia_homogeneous",
    "Yuca.rxn_homogeneous",
    "Yuca.nca_homogeneous",
    "Yuca.randomStep_homogeneous",
    "Yuca.code_homogeneous",
    "Yuca.meta_homogeneous",
    "Yuca.cca_mean_field",
    "Yuca.randomSteps_homogeneous",
    "Yuca.codeSteps_homogeneous"
   ],
   "note": ""
  },
  {
   "property": "C130",
   "status": "proved",
   "theorems": [
    "Yuca.cca_drift",
    "Yuca.lenia_drift",
    "Yuca.random_drift",
    "Yuca.random_slip",
    "Yuca.cca_slip",
    "Yuca.lenia_slip",
    "Yuca.drift_vanishes",
    "Yuca.double_represents",
    "Yuca.gaussian_gentle"
   ],
   "note": "The arithmetic is any that satisfies Spec.Precise; double precision is shown to (Witness.dblPrecise, rounding to 53 bits without a least exponent). The example bounds the first eight steps of the orbium in double precision by 1/100, and the first five with random step sizes."
  },
  {
   "property": "C131",
   "status": "proved",
   "theorems": [
    "Yuca.conditional_value",
    "Yuca.conditional_raises",
    "Yuca.conditional_range",
    "Yuca.conditional_opposite",
    "Yuca.conditional_turn",
    "Yuca.conditional_swap",
    "Yuca.conditional_affine",
    "Yuca.conditional_flat",
    "Yuca.multiconditional_value",
    "Yuca.multiconditional_two",
    "Yuca.multiconditional_turn",
    "Yuca.conditional_order_refuted"
   ],
   "note": "The byte numpy makes of 0/0 in flat grids is a parameter. The order by disorder is refuted with two rows of four cells."
  },
  {
   "property": "C132",
   "status": "proved",
   "theorems": [
    "Yuca.com_exact",
    "Yuca.com_none_iff",
    "Yuca.com_in_grid",
    "Yuca.com_moves",
    "Yuca.com_cut",
    "Yuca.com_crossing_refuted",
    "Yuca.com_corner_refuted",
    "Yuca.choose_pattern",
    "Yuca.choose_beyond_refuted",
    "Yuca.choose_default",
    "Yuca.prompt_clip",
    "Yuca.place_centred",
    "Yuca.place_errors",
    "Yuca.place_shipped",
    "Yuca.fig_frames",
    "Yuca.fig_titles",
    "Yuca.fig_title_refuted",
    "Yuca.run_until",
    "Yuca.run_until_raises",
    "Yuca.run_until_diverges",
    "Yuca.one_frame",
    "Yuca.all_frames",
    "Yuca.in_step_close",
    "Yuca.track_until",
    "Yuca.cca_ticks",
    "Yuca.lenia_ticks",
    "Yuca.cca_runs_iterate",
    "Yuca.update_single",
    "Yuca.single_frames",
    "Yuca.prompt_ready",
    "Yuca.prompt_settings",
    "Yuca.prompt_ends",
    "Yuca.prompt_default",
    "Yuca.prompt_min_refuted"
   ],
   "note": "The class CA of the notebook is in a module this version does not contain; the loops are proved for every automaton that ticks, among them CCA and Lenia. Drawing is left out."
  },
  {
   "property": "C133",
   "status": "proved",
   "theorems": [
    "Yuca.lenia_monotone",
    "Yuca.lenia_rule_refuted",
    "Yuca.lenia_morley_refuted",
    "Yuca.lenia_rule_iff",
    "Yuca.lenia_rule_forever",
    "Yuca.lenia_heavy_forever",
    "Yuca.nbUpdateFn_life",
    "Yuca.morley_lenia",
    "Yuca.morley_lenia_iff",
    "Yuca.morleyGlaberish_step",
    "Yuca.morley_glaberish",
    "Yuca.morley_lenia_still",
    "Yuca.morley_moves"
   ],
   "note": "The import cell of the notebook names a module this version does not contain; the two cells are read with the CCA it has become."
  },
  {
   "property": "C134",
   "status": "proved",
   "theorems": [
    "Yuca.npSaved_eq",
    "Yuca.save_read",
    "Yuca.save_others",
    "Yuca.save_bare_refuted",
    "Yuca.save_shadowed_refuted",
    "Yuca.save_default",
    "Yuca.save_restore",
    "Yuca.stored_rule",
    "Yuca.replay_clock",
    "Yuca.stored_replays"
   ],
   "note": "Exceptions save_bare_refuted and save_shadowed_refuted."
  },
  {
   "property": "C135",
   "status": "proved",
   "theorems": [
    "Yuca.plot4x4_short",
    "Yuca.timelapse_panel",
    "Yuca.timelapse_lines",
    "Yuca.timelapse_notes",
    "Yuca.timelapse_morley",
    "Yuca.half_lenia",
    "Yuca.puffer_still_lenia",
    "Yuca.stat_records",
    "Yuca.stat_short",
    "Yuca.plot_steps",
    "Yuca.plot_grows",
    "Yuca.stat_512",
    "Yuca.message_value",
    "Yuca.message_refuted",
    "Yuca.norm_means",
    "Yuca.gamma_runs",
    "Yuca.gamma_own_iff",
    "Yuca.baseline_curve",
    "Yuca.plot4x4_panels",
    "Yuca.frame4x4_panels",
    "Yuca.frame4x4_hidden",
    "Yuca.plot4x4_shows",
    "Yuca.frame_not_colab",
    "Yuca.game_round",
    "Yuca.game_dead",
    "Yuca.game_refuted",
    "Yuca.correct_count",
    "Yuca.played_eq",
    "Yuca.findConfig_root",
    "Yuca.halting_found",
    "Yuca.halting_missing"
   ],
   "note": "Exceptions message_refuted, plot_steps, plot_grows, gamma_own_iff, frame4x4_hidden, game_refuted and halting_missing. The notebooks import CA from a module that is not in the repository; an automaton is any map on grids."
  },
  {
   "property": "C136",
   "status": "proved",
   "theorems": [
    "Yuca.glider_frames",
    "Yuca.glider_hidden",
    "Yuca.track_points",
    "Yuca.glider_drawn",
    "Yuca.glider_never_fades",
    "Yuca.still_first",
    "Yuca.still_others",
    "Yuca.still_refuted",
    "Yuca.entropy_frames",
    "Yuca.entropy_age",
    "Yuca.entropy_refuted",
    "Yuca.moved_trans",
    "Yuca.glider_line",
    "Yuca.teaser_ok_iff",
    "Yuca.teaser_cells",
    "Yuca.square_cells",
    "Yuca.glider_rules"
   ],
   "note": "Exceptions glider_never_fades, still_refuted and entropy_refuted. The notebooks import CA from a module that is not in the repository; an automaton is any map on grids."
  },
  {
   "property": "C137",
   "status": "proved",
   "theorems": [
    "Yuca.file_saved",
    "Yuca.file_bare_refuted",
    "Yuca.rxn_save_restore",
    "Yuca.nca_save_restore",
    "Yuca.nca_save_over_refuted",
    "Yuca.nca_file_in_rxn_refuted",
    "Yuca.rxn_file_in_nca",
    "Yuca.other_file_in_cca",
    "Yuca.cca_file_elsewhere"
   ],
   "note": "Exceptions file_bare_refuted, nca_save_over_refuted and nca_file_in_rxn_refuted. The alive threshold and dropout rate are among the stored arguments but not part of the model of the constructor; the step function is compared for every threshold."
  },
  {
   "property": "C138",
   "status": "proved",
   "theorems": [
    "Yuca.cca_apart",
    "Yuca.cca_past",
    "Yuca.lenia_apart",
    "Yuca.lenia_past",
    "Yuca.random_past",
    "Yuca.rxn_past",
    "Yuca.rxn_never_gone",
    "Yuca.nca_past",
    "Yuca.merge_refuted",
    "Yuca.clip_refuted"
   ],
   "note": "Exceptions merge_refuted and clip_refuted. The bounds M and L are those of C100, and C106 for Gray-Scott and neural automata."
  },
  {
   "property": "C139",
   "status": "proved",
   "theorems": [
    "Yuca.stepsFn_eq",
    "Yuca.metaMixture_takes",
    "Yuca.metaMixture_cell",
    "Yuca.metaMixture_values",
    "Yuca.metaMixture_order",
    "Yuca.metaMixture_reads",
    "Yuca.perSlice_cellwise",
    "Yuca.metaMixture_no_growth",
    "Yuca.unused_not_named"
   ],
   "note": "Exact real arithmetic. perSlice_cellwise ties genesis and persistence for modules on tensors to the cell-by-cell reading of the other claims."
  },
  {
   "property": "C14",
   "status": "proved",
   "theorems": [
    "Yuca.getKernel_dihedral",
    "Yuca.cca_transpose",
    "Yuca.cca_flipRows",
    "Yuca.cca_flipCols",
    "Yuca.cca_rot90",
    "Yuca.cca_isotropic_of_config",
    "Yuca.lenia_isotropic",
    "Yuca.base_isotropic",
    "Yuca.rxn_isotropic",
    "Yuca.nca_isotropic",
    "Yuca.randomStep_isotropic",
    "Yuca.code_isotropic",
    "Yuca.turns_isotropic",
    "Yuca.randomSteps_isotropic",
    "Yuca.codeSteps_isotropic",
    "Yuca.turns_isotropic_rest",
    "Yuca.meta_isotropic",
    "Yuca.meta_turns"
   ],
   "note": "Exact real arithmetic."
  },
  {
   "property": "C140",
   "status": "proved",
   "theorems": [
    "Yuca.growth_points",
    "Yuca.plot_even",
    "Yuca.plotPoints_length",
    "Yuca.plot_growth_raises",
    "Yuca.plot_growth_curve",
    "Yuca.plot_growth_near",
    "Yuca.plot_growth_extra_refuted",
    "Yuca.plot_growth_default",
    "Yuca.plot_growth_notebook",
    "Yuca.plot_growth_default_near",
    "Yuca.plot_genper_raises",
    "Yuca.plot_genper_curves",
    "Yuca.plot_genper_combined",
    "Yuca.plot_genper_sum"
   ],
   "note": "Exception plot_growth_extra_refuted. Images, colours and ticks are not modelled; numpy fills an arange from its first two elements."
  },
  {
   "property": "C15",
   "status": "proved",
   "theorems": [
    "Yuca.cca_runs_iff",
    "Yuca.conv_keeps_side_iff",
    "Yuca.forward_shape",
    "Yuca.forward_shape_two_refuted",
    "Yuca.kernel_side"
   ],
   "note": ""
  },
  {
   "property": "C16",
   "status": "proved",
   "theorems": [
    "Yuca.kernel_normalised",
    "Yuca.neighborhood_range"
   ],
   "note": ""
  },
  {
   "property": "C17",
   "status": "proved",
   "theorems": [
    "Yuca.moore_like",
    "Yuca.moore_like_zero",
    "Yuca.inner_moore",
    "Yuca.unknown_kernel"
   ],
   "note": ""
  },
  {
   "property": "C18",
   "status": "proved",
   "theorems": [
    "Yuca.laplacian9_sum",
    "Yuca.log_sum",
    "Yuca.log_abs_sum",
    "Yuca.zero_sum_response"
   ],
   "note": ""
  },
  {
   "property": "C19",
   "status": "proved",
   "theorems": [
    "Yuca.gaussian_range",
    "Yuca.mixture_range",
    "Yuca.doubleGaussian_range",
    "Yuca.smoothIntervals_range",
    "Yuca.smoothIntervals_empty"
   ],
   "note": ""
  },
  {
   "property": "C20",
   "status": "proved",
   "theorems": [
    "Yuca.growth_mode_affine",
    "Yuca.doGaussian_negative",
    "Yuca.doGaussian_affine_refuted",
    "Yuca.doGaussian_never_increases"
   ],
   "note": ""
  },
  {
   "property": "C21",
   "status": "proved",
   "theorems": [
    "Yuca.mixture_reads_pairs",
    "Yuca.mixture_reads_triples",
    "Yuca.mixture_misreads_pairs",
    "Yuca.mixture_length"
   ],
   "note": ""
  },
  {
   "property": "C22",
   "status": "proved",
   "theorems": [
    "Yuca.life_forever",
    "Yuca.life_exact",
    "Yuca.life_any_rule",
    "Yuca.life_general_refuted"
   ],
   "note": "Rules with birth contained in survival: for ever. Other rules: 2500 steps, and a witness that no bound lasts for ever."
  },
  {
   "property": "C23",
   "status": "proved",
   "theorems": [
    "Yuca.rxn_initial_equilibrium",
    "Yuca.rxn_trivial_equilibrium",
    "Yuca.background_rest",
    "Yuca.rxn_rest_forever",
    "Yuca.rxn_fixed_rest",
    "Yuca.rxn_default_laplacian"
   ],
   "note": "Exact arithmetic, for positive feed rate, non-negative kill rate and any zero-sum kernel."
  },
  {
   "property": "C24",
   "status": "proved",
   "theorems": [
    "Yuca.code_step",
    "Yuca.code_step_unique",
    "Yuca.code_not_ready",
    "Yuca.code_diverges",
    "Yuca.code_runs_forever",
    "Yuca.code_time_bounds"
   ],
   "note": "Exact arithmetic."
  },
  {
   "property": "C25",
   "status": "proved",
   "theorems": [
    "Yuca.randomStep_dt",
    "Yuca.randomStep_time_bounds",
    "Yuca.randomStep_injective"
   ],
   "note": "Exact arithmetic."
  },
  {
   "property": "C26",
   "status": "proved",
   "theorems": [
    "Yuca.meta_reset_forgets",
    "Yuca.meta_new_shape",
    "Yuca.meta_history_matters_refuted"
   ],
   "note": "Any arithmetic."
  },
  {
   "property": "C27",
   "status": "proved",
   "theorems": [
    "Yuca.getDt_works",
    "Yuca.classes_getDt",
    "Yuca.code_getDt",
    "Yuca.randomStep_getDt"
   ],
   "note": "CODE and RandomStepCA: the exceptions are proved."
  },
  {
   "property": "C28",
   "status": "proved",
   "theorems": [
    "Yuca.cca_params_roundtrip",
    "Yuca.lenia_params_roundtrip",
    "Yuca.nca_params_roundtrip",
    "Yuca.nca_params_roundtrip_none",
    "Yuca.rxn_params_roundtrip",
    "Yuca.cppn_params_roundtrip",
    "Yuca.cppnplus_params_roundtrip",
    "Yuca.agent_params_roundtrip",
    "Yuca.agent_params_filter_iff",
    "Yuca.agent_params_filter_refuted",
    "Yuca.cca_params_scalar_refuted"
   ],
   "note": "ParamsAgent with its filter on: the exception is proved."
  },
  {
   "property": "C29",
   "status": "proved",
   "theorems": [
    "Yuca.cca_params_longer",
    "Yuca.rxn_params_longer",
    "Yuca.cca_params_short",
    "Yuca.tensors_params_short",
    "Yuca.rxn_params_short",
    "Yuca.cca_params_kernel_short",
    "Yuca.cca_params_kernel_short_refuted",
    "Yuca.cca_params_scalar_refuted",
    "Yuca.tensors_params_longer",
    "Yuca.lenia_params_longer",
    "Yuca.lenia_params_short",
    "Yuca.nca_params_longer",
    "Yuca.nca_params_kernel_short",
    "Yuca.cppnplus_params_longer_refuted"
   ],
   "note": ""
  },
  {
   "property": "C30",
   "status": "proved",
   "theorems": [
    "Yuca.cca_set_own",
    "Yuca.cca_set_own_noop_iff",
    "Yuca.cca_set_own_moore_refuted",
    "Yuca.cca_set_own_gaussian",
    "Yuca.cca_set_own_order_refuted"
   ],
   "note": "Exact arithmetic; the exceptions by witnesses."
  },
  {
   "property": "C31",
   "status": "proved",
   "theorems": [
    "Yuca.config_roundtrip",
    "Yuca.growth_survives_iff",
    "Yuca.mixture_regrown",
    "Yuca.loaded_saveable",
    "Yuca.orbium_roundtrip",
    "Yuca.identity_kernel_lost_refuted",
    "Yuca.multichannel_lost_refuted",
    "Yuca.weights_lost_refuted",
    "Yuca.intervals_lost_refuted",
    "Yuca.life_reload_dies",
    "Yuca.default_growth_lost_refuted"
   ],
   "note": "Exact arithmetic; what is lost is proved as negations."
  },
  {
   "property": "C32",
   "status": "proved",
   "theorems": [
    "Yuca.growth_config_current",
    "Yuca.growth_config_stale",
    "Yuca.gaussian_config_stale_refuted",
    "Yuca.kernel_config_frozen",
    "Yuca.kernel_config_first",
    "Yuca.elite_configs_one_kernel",
    "Yuca.evolved_roundtrip_iff",
    "Yuca.evolved_kernel_lost_refuted"
   ],
   "note": "Exact arithmetic."
  },
  {
   "property": "C33",
   "status": "proved",
   "theorems": [
    "Yuca.restore_terminates",
    "Yuca.restore_terminates_acyclic",
    "Yuca.restore_diverges",
    "Yuca.restore_returns_iff",
    "Yuca.save_over_own_config_refuted"
   ],
   "note": "Nested calls are counted by fuel; fuel monotonicity is init_mono."
  },
  {
   "property": "C34",
   "status": "proved",
   "theorems": [
    "Yuca.rxn_config_roundtrip",
    "Yuca.rxn_config_same",
    "Yuca.rxn_config_trajectory",
    "Yuca.rxn_sound_run",
    "Yuca.rxn_params_override",
    "Yuca.rxn_params_required",
    "Yuca.rxn_identity_lost_refuted"
   ],
   "note": "Exact arithmetic."
  },
  {
   "property": "C35",
   "status": "proved",
   "theorems": [
    "Yuca.set_radius_takes_effect",
    "Yuca.set_kernel_config_takes_effect",
    "Yuca.set_radius_needs_config",
    "Yuca.add_kernel_no_effect",
    "Yuca.add_kernel_then_init",
    "Yuca.nca_set_kernel_config_no_effect",
    "Yuca.set_radius_reverts_kernel_refuted"
   ],
   "note": ""
  },
  {
   "property": "C36",
   "status": "proved",
   "theorems": [
    "Yuca.store_terminates",
    "Yuca.store_effect",
    "Yuca.store_preserves",
    "Yuca.store_only_two_files",
    "Yuca.store_adds_one",
    "Yuca.stores_distinct"
   ],
   "note": ""
  },
  {
   "property": "C37",
   "status": "proved",
   "theorems": [
    "Yuca.crash_keeps_meta",
    "Yuca.crash_keeps_patterns",
    "Yuca.crash_then_store",
    "Yuca.crash_unloadable_refuted"
   ],
   "note": ""
  },
  {
   "property": "C38",
   "status": "proved",
   "theorems": [
    "Yuca.load_store",
    "Yuca.load_store_exact",
    "Yuca.comma_lost_refuted",
    "Yuca.newline_lost_refuted",
    "Yuca.config_written",
    "Yuca.config_given",
    "Yuca.return_lost_refuted"
   ],
   "note": ""
  },
  {
   "property": "C39",
   "status": "proved",
   "theorems": [
    "Yuca.index_spec",
    "Yuca.index_exact",
    "Yuca.hidden_name_never_listed",
    "Yuca.index_after_store",
    "Yuca.index_duplicates_refuted"
   ],
   "note": ""
  },
  {
   "property": "C40",
   "status": "proved",
   "theorems": [
    "Yuca.eliteKeep_bounds",
    "Yuca.truncation_correct",
    "Yuca.truncation_empty",
    "Yuca.tournament_correct",
    "Yuca.lottery_correct",
    "Yuca.lottery_probability",
    "Yuca.nan_is_best"
   ],
   "note": ""
  },
  {
   "property": "C41",
   "status": "proved",
   "theorems": [
    "Yuca.best_survives",
    "Yuca.elite_survive",
    "Yuca.elite_lost_refuted",
    "Yuca.nobody_survives"
   ],
   "note": ""
  },
  {
   "property": "C42",
   "status": "proved",
   "theorems": [
    "Yuca.eliteCovar_covariance",
    "Yuca.startCovar_covariance",
    "Yuca.covariance_always",
    "Yuca.means_average"
   ],
   "note": ""
  },
  {
   "property": "C43",
   "status": "proved",
   "theorems": [
    "Yuca.logged_elite_evaluated",
    "Yuca.last_generation_saves_best",
    "Yuca.full_run_saves_best",
    "Yuca.early_stop_saves",
    "Yuca.early_stop_refuted",
    "Yuca.early_stop",
    "Yuca.calm_iff"
   ],
   "note": ""
  },
  {
   "property": "C44",
   "status": "proved",
   "theorems": [
    "Yuca.split_correct",
    "Yuca.split_balanced",
    "Yuca.split_one",
    "Yuca.parallel_eq_serial",
    "Yuca.parallel_done"
   ],
   "note": ""
  },
  {
   "property": "C45",
   "status": "proved",
   "theorems": [
    "Yuca.population_bookkeeping",
    "Yuca.log_step",
    "Yuca.log_count",
    "Yuca.log_accumulates"
   ],
   "note": ""
  },
  {
   "property": "C46",
   "status": "proved",
   "theorems": [
    "Yuca.frameName_sorted",
    "Yuca.gif_plays_trajectory",
    "Yuca.gif_no_steps",
    "Yuca.stale_frame_refuted"
   ],
   "note": ""
  },
  {
   "property": "C47",
   "status": "proved",
   "theorems": [
    "Yuca.getMask_spec",
    "Yuca.bitePoints_two",
    "Yuca.bitePoints_pow",
    "Yuca.bite_ok_iff",
    "Yuca.bite_pow_two",
    "Yuca.bite_not_square",
    "Yuca.bite_58_refuted",
    "Yuca.bite_tiny",
    "Yuca.prep_default",
    "Yuca.prep_ok",
    "Yuca.aperture_spec",
    "Yuca.prep_value",
    "Yuca.prep_ok_iff",
    "Yuca.biteCoord_grid"
   ],
   "note": ""
  },
  {
   "property": "C48",
   "status": "proved",
   "theorems": [
    "Yuca.startGrid_support",
    "Yuca.activeGrid_count",
    "Yuca.rollout_step",
    "Yuca.activeGrid_range",
    "Yuca.halting_reward_range",
    "Yuca.halting_reward_best"
   ],
   "note": "Exact arithmetic."
  },
  {
   "property": "C49",
   "status": "proved",
   "theorems": [
    "Yuca.glider_telescopes",
    "Yuca.glider_reward_bound",
    "Yuca.glider_zero_steps",
    "Yuca.glider_returns"
   ],
   "note": "Exact arithmetic."
  },
  {
   "property": "C50",
   "status": "proved",
   "theorems": [
    "Yuca.lastStep_spec",
    "Yuca.lastStep_all_vanished",
    "Yuca.batchEmpty_inactive"
   ],
   "note": ""
  },
  {
   "property": "C51",
   "status": "proved",
   "theorems": [
    "Yuca.toByte_range",
    "Yuca.byteProb_sum",
    "Yuca.gridEntropy_shannon",
    "Yuca.gridEntropy_bounds",
    "Yuca.gridEntropy_perm",
    "Yuca.uniform_entropy_refuted",
    "Yuca.table_total",
    "Yuca.conditional_entropy_bounds",
    "Yuca.multiconditional_entropy_bounds",
    "Yuca.conditional_entropy_refuted"
   ],
   "note": "over exact reals"
  },
  {
   "property": "C52",
   "status": "proved",
   "theorems": [
    "Yuca.cppnPoints_eq",
    "Yuca.cppnPoints_tiny",
    "Yuca.cppnAction_ok_iff",
    "Yuca.cppnAction_range",
    "Yuca.dampedSine_wave"
   ],
   "note": ""
  },
  {
   "property": "C53",
   "status": "proved",
   "theorems": [
    "Yuca.agent_filter_box",
    "Yuca.agent_filter_idempotent",
    "Yuca.agent_action",
    "Yuca.agent_unfiltered",
    "Yuca.agent_new",
    "Yuca.agent_new_unfiltered_refuted"
   ],
   "note": ""
  },
  {
   "property": "C54",
   "status": "proved",
   "theorems": [
    "Yuca.searchKind_spec",
    "Yuca.expId_pattern",
    "Yuca.caFn_name",
    "Yuca.envFn_name",
    "Yuca.caFn_spec",
    "Yuca.envFn_spec",
    "Yuca.caFn_first",
    "Yuca.envFn_first",
    "Yuca.evolve_spec",
    "Yuca.evolve_error_iff",
    "Yuca.names_refuted",
    "Yuca.env_ignored_refuted"
   ],
   "note": ""
  },
  {
   "property": "C55",
   "status": "proved",
   "theorems": [
    "Yuca.groupArgs_error_iff",
    "Yuca.groupArgs_ok",
    "Yuca.entryArgs_tokens",
    "Yuca.entryArgs_eq_iff",
    "Yuca.entryArgs_refuted"
   ],
   "note": ""
  },
  {
   "property": "C56",
   "status": "proved",
   "theorems": [
    "Yuca.clone_saves",
    "Yuca.clone_counts",
    "Yuca.clone_saves_refuted",
    "Yuca.clone_saves_none",
    "Yuca.clonePath_replaced",
    "Yuca.clonePaths_constant",
    "Yuca.clonePaths_overwrite_refuted"
   ],
   "note": "saving the best weights is refuted; what is saved is characterised"
  },
  {
   "property": "C57",
   "status": "proved",
   "theorems": [
    "Yuca.nextHidden_bounds",
    "Yuca.hiddenAt_monotone",
    "Yuca.hiddenAt_above",
    "Yuca.hiddenAt_stalls_refuted",
    "Yuca.hiddenAt_reaches"
   ],
   "note": ""
  },
  {
   "property": "C58",
   "status": "proved",
   "theorems": [
    "Yuca.predictorForward_spec",
    "Yuca.predictor_dead_layers",
    "Yuca.predictor_dead_count",
    "Yuca.predictor_even_same",
    "Yuca.predictor_used_layers"
   ],
   "note": ""
  },
  {
   "property": "C59",
   "status": "proved",
   "theorems": [
    "Yuca.predictor_reward",
    "Yuca.predictor_reward_worst"
   ],
   "note": "Exact arithmetic."
  },
  {
   "property": "C60",
   "status": "proved",
   "theorems": [
    "Yuca.train_label_eval",
    "Yuca.labels_differ_refuted"
   ],
   "note": "Exact arithmetic."
  },
  {
   "property": "C61",
   "status": "proved",
   "theorems": [
    "Yuca.glider_shrink_stops",
    "Yuca.glider_goes_on",
    "Yuca.glider_run_stop",
    "Yuca.glider_stop_not_static_refuted"
   ],
   "note": ""
  },
  {
   "property": "C62",
   "status": "proved",
   "theorems": [
    "Yuca.com_batch_dilution",
    "Yuca.com_batch_smaller"
   ],
   "note": "Exact arithmetic."
  },
  {
   "property": "C63",
   "status": "proved",
   "theorems": [
    "Yuca.restore_missing",
    "Yuca.init_missing"
   ],
   "note": ""
  },
  {
   "property": "C64",
   "status": "proved",
   "theorems": [
    "Yuca.default_persistence_parameters",
    "Yuca.default_persistence_same"
   ],
   "note": "Exact arithmetic."
  },
  {
   "property": "C65",
   "status": "proved",
   "theorems": [
    "Yuca.nca_config_roundtrip",
    "Yuca.nca_load_vec",
    "Yuca.nca_load_plain",
    "Yuca.nca_load_scalar",
    "Yuca.nca_set_kernel_reload_refuted"
   ],
   "note": "Exact arithmetic."
  },
  {
   "property": "C66",
   "status": "proved",
   "theorems": [
    "Yuca.make_config_pure",
    "Yuca.make_config_stable",
    "Yuca.make_config_second_on",
    "Yuca.make_config_twice_refuted"
   ],
   "note": ""
  },
  {
   "property": "C67",
   "status": "proved",
   "theorems": [
    "Yuca.crop_inside",
    "Yuca.crop_general",
    "Yuca.crop_clamped",
    "Yuca.crop_reversed"
   ],
   "note": ""
  },
  {
   "property": "C68",
   "status": "proved",
   "theorems": [
    "Yuca.search_confined"
   ],
   "note": ""
  },
  {
   "property": "C69",
   "status": "proved",
   "theorems": [
    "Yuca.seeds_not_independent_refuted",
    "Yuca.run_leaves_elite"
   ],
   "note": ""
  },
  {
   "property": "C70",
   "status": "proved",
   "theorems": [
    "Yuca.params_start_sampled",
    "Yuca.cppnPlus_start_refuted",
    "Yuca.cppn_start_ignores_refuted"
   ],
   "note": ""
  },
  {
   "property": "C71",
   "status": "proved",
   "theorems": [
    "Yuca.no_deadlock",
    "Yuca.parallel_terminates"
   ],
   "note": ""
  },
  {
   "property": "C72",
   "status": "proved",
   "theorems": [
    "Yuca.shiftAxis_spec",
    "Yuca.npShift_spec",
    "Yuca.directionShift_spec",
    "Yuca.wrapWindow_spec",
    "Yuca.windowAxis_refuted",
    "Yuca.boxAssign_ok_iff",
    "Yuca.boxAssign_odd_refuted",
    "Yuca.box_centred",
    "Yuca.box_clear_of_border"
   ],
   "note": ""
  },
  {
   "property": "C73",
   "status": "proved",
   "theorems": [
    "Yuca.cppnAction_mirror",
    "Yuca.cppnFeatures_mirror",
    "Yuca.cppnFeatures_sides",
    "Yuca.cppnCoord_mirror"
   ],
   "note": "over exact reals"
  },
  {
   "property": "C74",
   "status": "proved",
   "theorems": [
    "Yuca.predictor_increases",
    "Yuca.predictor_never_exact",
    "Yuca.predictor_no_repeat"
   ],
   "note": "over exact reals"
  },
  {
   "property": "C75",
   "status": "proved",
   "theorems": [
    "Yuca.predictorSave_error",
    "Yuca.predictorFit_error"
   ],
   "note": ""
  },
  {
   "property": "C76",
   "status": "proved",
   "theorems": [
    "Yuca.cca_rule",
    "Yuca.cca_rule_one",
    "Yuca.cca_rule_sequential",
    "Yuca.lenia_rule",
    "Yuca.lenia_rule_one",
    "Yuca.base_rule",
    "Yuca.nca_rule"
   ],
   "note": "exact arithmetic"
  },
  {
   "property": "C77",
   "status": "proved",
   "theorems": [
    "Yuca.rxn_rule",
    "Yuca.rxn_default_rule"
   ],
   "note": "exact arithmetic"
  },
  {
   "property": "C78",
   "status": "proved",
   "theorems": [
    "Yuca.cca_channels_move_together",
    "Yuca.cca_equal_channels"
   ],
   "note": "exact arithmetic"
  },
  {
   "property": "C79",
   "status": "proved",
   "theorems": [
    "Yuca.cca_mirror_forever",
    "Yuca.mirrorRows_moment",
    "Yuca.cppn_mirrorRows",
    "Yuca.cppn_never_moves_vertically",
    "Yuca.cppn_pattern_exists",
    "Yuca.mirror_forever",
    "Yuca.rxn_mirror_forever",
    "Yuca.meta_mirror_forever",
    "Yuca.code_mirror_forever",
    "Yuca.cppn_never_moves_vertically_rest",
    "Yuca.cppn_rxn_never_moves_vertically",
    "Yuca.cppn_glides_sideways"
   ],
   "note": "exact arithmetic"
  },
  {
   "property": "C80",
   "status": "proved",
   "theorems": [
    "Yuca.randomStep_rule",
    "Yuca.code_grid_rule",
    "Yuca.meta_rule",
    "Yuca.meta_first_step",
    "Yuca.meta_inertia"
   ],
   "note": "Exact arithmetic."
  },
  {
   "property": "C81",
   "status": "proved",
   "theorems": [
    "Yuca.frame_rule",
    "Yuca.lenia_frame_rule",
    "Yuca.nca_frame_rule"
   ],
   "note": "Exact arithmetic."
  },
  {
   "property": "C82",
   "status": "proved",
   "theorems": [
    "Yuca.fitness_history_free",
    "Yuca.fitness_history_free_random",
    "Yuca.randomStep_keeps_dt",
    "Yuca.evalAll_divided",
    "Yuca.meta_history_refuted",
    "Yuca.meta_divided_refuted",
    "Yuca.code_history_refuted"
   ],
   "note": "Exact arithmetic. The exceptions for MetaCA and CODE are proved with concrete agents (CODE: for every sufficiently large bound on the search for a step size)."
  },
  {
   "property": "C83",
   "status": "proved",
   "theorems": [
    "Yuca.cca_search",
    "Yuca.live_gens",
    "Yuca.seedGens_runGens",
    "Yuca.same_product",
    "Yuca.first_generation",
    "Yuca.best_never_falls",
    "Yuca.best_never_falls_zero",
    "Yuca.best_falls_refuted",
    "Yuca.live_completes"
   ],
   "note": "Exact arithmetic. The general statements are for every environment that forgets; cca_search is the one for CCA. RandomStepCA draws from numpy while it runs, so there the noise follows the draws of the last agent evaluated (live_gens)."
  },
  {
   "property": "C84",
   "status": "proved",
   "theorems": [
    "Yuca.growth_values",
    "Yuca.growth_modes",
    "Yuca.gaussian_growth_sign",
    "Yuca.doGaussian_mode_refuted",
    "Yuca.cosOverX2_values",
    "Yuca.smoothLife_values",
    "Yuca.gaussian_kernel_order",
    "Yuca.smoothLife_kernel",
    "Yuca.kernel_defaults",
    "Yuca.edge_antisymmetric",
    "Yuca.edge_sum",
    "Yuca.edge_kernel_order",
    "Yuca.edge_constant_refuted",
    "Yuca.edge_kernels_refuted"
   ],
   "note": "Exact arithmetic. DoGaussian kernels always use the default dx."
  },
  {
   "property": "C85",
   "status": "proved",
   "theorems": [
    "Yuca.orbium_rule",
    "Yuca.geminium_rule",
    "Yuca.smoothLife_rule",
    "Yuca.profile_unique"
   ],
   "note": "Exact arithmetic, one channel, circular padding, functional mode. SmoothLife with its default intervals."
  },
  {
   "property": "C86",
   "status": "proved",
   "theorems": [
    "Yuca.glider_flies",
    "Yuca.glider_moves",
    "Yuca.glider_circles",
    "Yuca.life_glider",
    "Yuca.life_puffer",
    "Yuca.puffer_puffs"
   ],
   "note": "Exact arithmetic; the automaton is the one load_life_like gives."
  },
  {
   "property": "C87",
   "status": "proved",
   "theorems": [
    "Yuca.autocorrelate_value",
    "Yuca.autocorrelate_bounds",
    "Yuca.autocorrelate_comm",
    "Yuca.autocorrelate_roll",
    "Yuca.auto_columns",
    "Yuca.auto_columns_channels",
    "Yuca.printed_average",
    "Yuca.flags_spec",
    "Yuca.ratios_spec",
    "Yuca.fertility_mortality",
    "Yuca.analyze_rows",
    "Yuca.early_end_row",
    "Yuca.mortality_monotone"
   ],
   "note": "Exact arithmetic; one channel except for the meaning of the columns; the entropies have their own claim."
  },
  {
   "property": "C88",
   "status": "proved",
   "theorems": [
    "Yuca.save_beside",
    "Yuca.save_in_parent",
    "Yuca.multiverse_skip",
    "Yuca.multiverse_saves",
    "Yuca.multiverse_no_directory",
    "Yuca.savePath_inj",
    "Yuca.savePath_clash"
   ],
   "note": "POSIX paths; loading and analysing one file is a parameter."
  },
  {
   "property": "C89",
   "status": "proved",
   "theorems": [
    "Yuca.fitness_mean",
    "Yuca.fitness_zero",
    "Yuca.halting_fitness",
    "Yuca.random_reward",
    "Yuca.random_fitness",
    "Yuca.cca_call_clock"
   ],
   "note": "Exact arithmetic; the random generators are parameters."
  },
  {
   "property": "C90",
   "status": "proved",
   "theorems": [
    "Yuca.machine_life_forever",
    "Yuca.machine_life_exact",
    "Yuca.machine_glider"
   ],
   "note": "The accuracy of the arithmetic and of the computed growth functions is a hypothesis; double precision without overflow and underflow is shown to meet the arithmetic part, with growth functions correct to three digits."
  },
  {
   "property": "C91",
   "status": "proved",
   "theorems": [
    "Yuca.picture_colour",
    "Yuca.picture_length",
    "Yuca.picture_red",
    "Yuca.picture_map",
    "Yuca.picture_first_sample",
    "Yuca.picture_close",
    "Yuca.picture_darker",
    "Yuca.picture_transparent",
    "Yuca.film_plays",
    "Yuca.film_other_modes",
    "Yuca.life_gif",
    "Yuca.picture_two_colours",
    "Yuca.film_empty_refuted"
   ],
   "note": "Exact arithmetic; the casts of values outside [0, 1] are platform dependent and not covered; the colour map is a parameter."
  },
  {
   "property": "C92",
   "status": "proved",
   "theorems": [
    "Yuca.coevo_step",
    "Yuca.coevo_saved_ignores_rule",
    "Yuca.coevo_saved",
    "Yuca.coevo_saves",
    "Yuca.coevo_logged",
    "Yuca.coevo_saved_iff",
    "Yuca.coevo_saved_refuted"
   ],
   "note": "The split of an agent into weights and rule is an argument; the objects carry growth configs, as they do after the first make_config."
  },
  {
   "property": "C93",
   "status": "proved",
   "theorems": [
    "Yuca.pattern_history_free",
    "Yuca.pattern_history_free_random",
    "Yuca.pattern_history_free_meta",
    "Yuca.coevo_history_free",
    "Yuca.coevo_history_free_random",
    "Yuca.coevo_history_free_meta",
    "Yuca.pattern_one_rollout",
    "Yuca.pattern_one_rollout_meta",
    "Yuca.coevo_one_rollout",
    "Yuca.episode_reward",
    "Yuca.pattern_code_refuted",
    "Yuca.coevo_code_refuted"
   ],
   "note": "The network is an arbitrary function from weights to patterns that draws no random numbers."
  },
  {
   "property": "C94",
   "status": "proved",
   "theorems": [
    "Yuca.early_gifs",
    "Yuca.late_gifs_rule",
    "Yuca.late_gifs_pattern",
    "Yuca.universe_gifs",
    "Yuca.universe_gifs_last",
    "Yuca.universe_gifs_refuted",
    "Yuca.pattern_gifs",
    "Yuca.coevo_gifs",
    "Yuca.early_gifs_coevo_elite",
    "Yuca.late_gifs_coevo",
    "Yuca.coevo_gifs_change_refuted",
    "Yuca.gifs_pattern_coevo_refuted",
    "Yuca.gif_start",
    "Yuca.gif_start_refuted",
    "Yuca.gifPath_inj",
    "Yuca.gifPath_seed",
    "Yuca.pattern_files",
    "Yuca.one_generation_files_refuted",
    "Yuca.gifs_overwrite_refuted",
    "Yuca.coevo_overwrite_refuted"
   ],
   "note": "What one gif draws is C91; whole seeds assume draws numpy can produce and a population of at least one agent."
  },
  {
   "property": "C95",
   "status": "proved",
   "theorems": [
    "Yuca.unpredictable_history_free",
    "Yuca.unpredictable_history_free_random",
    "Yuca.unpredictable_history_free_meta",
    "Yuca.halting_step_parts",
    "Yuca.train_meaning",
    "Yuca.judge_meaning",
    "Yuca.judge_range",
    "Yuca.prediction_range",
    "Yuca.train_target_eval",
    "Yuca.dead_labels",
    "Yuca.trainRun_stops",
    "Yuca.evalRun_stops",
    "Yuca.halting_runs_lossless",
    "Yuca.cca_halting_runs_lossless",
    "Yuca.forward_ok_iff",
    "Yuca.forward_visits",
    "Yuca.avgPool_total",
    "Yuca.avgPool_between",
    "Yuca.halting_step_fails",
    "Yuca.halting_step_ok",
    "Yuca.cca_judge_reset",
    "Yuca.randomStep_judge_reset",
    "Yuca.meta_judge_refuted"
   ],
   "note": "The layers and the optimizer are arbitrary functions. CODE keeps its step size over resets (C82) and is not covered by the independence."
  },
  {
   "property": "C96",
   "status": "proved",
   "theorems": [
    "Yuca.start_variance",
    "Yuca.start_positive",
    "Yuca.load_ok_iff",
    "Yuca.load_other",
    "Yuca.load_same",
    "Yuca.resume_any",
    "Yuca.full_run_elite",
    "Yuca.resume_keeps_best",
    "Yuca.resume_keeps_mean",
    "Yuca.resume_covar_refuted",
    "Yuca.resume_pattern_refuted",
    "Yuca.resume_coevo",
    "Yuca.resume_coevo_refuted",
    "Yuca.resume_tournament_refuted"
   ],
   "note": ""
  },
  {
   "property": "C97",
   "status": "proved",
   "theorems": [
    "Yuca.paste_ok_iff",
    "Yuca.paste_cells",
    "Yuca.next_shows",
    "Yuca.prev_shows",
    "Yuca.prev_single",
    "Yuca.this_shows",
    "Yuca.tour",
    "Yuca.next_prev",
    "Yuca.session_index",
    "Yuca.session_perm",
    "Yuca.click_index",
    "Yuca.next_skips",
    "Yuca.all_passed_over",
    "Yuca.stored_none_refuted",
    "Yuca.one_round",
    "Yuca.broken_next_refuted",
    "Yuca.broken_prev_refuted",
    "Yuca.shipped_unshown",
    "Yuca.shipped_round",
    "Yuca.go_toggles",
    "Yuca.speed_buttons",
    "Yuca.session_clock",
    "Yuca.step_reset_refuted",
    "Yuca.caption_from_index",
    "Yuca.session_cells",
    "Yuca.start_shows",
    "Yuca.this_tells",
    "Yuca.reset_tells"
   ],
   "note": ""
  },
  {
   "property": "C98",
   "status": "proved",
   "theorems": [
    "Yuca.evaluate_eq",
    "Yuca.evaluate_perm",
    "Yuca.evaluate_global_refuted",
    "Yuca.batchMean_eq",
    "Yuca.evaluate_scale",
    "Yuca.loader_rows",
    "Yuca.loader_count",
    "Yuca.loader_sizes",
    "Yuca.train_epoch",
    "Yuca.smooth_between",
    "Yuca.smooth_lag",
    "Yuca.first_loss_weight",
    "Yuca.saveProgress_eq",
    "Yuca.fit_none",
    "Yuca.fit_stops",
    "Yuca.split_ok",
    "Yuca.split_fails",
    "Yuca.testPath_replaced",
    "Yuca.testPath_same_iff",
    "Yuca.default_test_refuted",
    "Yuca.test_leak",
    "Yuca.script_stops",
    "Yuca.script_untrained",
    "Yuca.script_few_rows",
    "Yuca.expTag_inj"
   ],
   "note": "Over exact reals; the network and the optimizer step are arguments."
  },
  {
   "property": "C99",
   "status": "proved",
   "theorems": [
    "Yuca.interval_nine",
    "Yuca.interval_eight_refuted",
    "Yuca.kernel_fn_unused",
    "Yuca.nbKernel_mean",
    "Yuca.nbKernel_symm",
    "Yuca.nbKernel_order",
    "Yuca.nbMoore_eq",
    "Yuca.nbEye_eq",
    "Yuca.nbConv_moore",
    "Yuca.nbConv_eye",
    "Yuca.life_growth_count",
    "Yuca.notebook_step",
    "Yuca.life_growth_two",
    "Yuca.notebook_drift_refuted",
    "Yuca.glaberish_step",
    "Yuca.glaberish_forever",
    "Yuca.nbMakeGif_spec"
   ],
   "note": "Over exact reals."
  }
 ]
}