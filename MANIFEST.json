{
 "claims": [
  {
   "property": "C01",
   "status": "proved",
   "theorems": [
    "Verif.Slicing.unfold_windows_correct"
   ],
   "note": ""
  },
  {
   "property": "C02",
   "status": "proved",
   "theorems": [
    "Verif.Slicing.unfold_windows_correct",
    "Verif.Slicing.unfold_windows_cover"
   ],
   "note": ""
  },
  {
   "property": "C03",
   "status": "proved",
   "theorems": [
    "Verif.Slicing.unfold_windows_error_iff"
   ],
   "note": ""
  },
  {
   "property": "C04",
   "status": "proved",
   "theorems": [
    "Verif.Slicing.slice_kernels_1d",
    "Verif.Slicing.slice_kernels_2d_coincident",
    "Verif.Slicing.slice_kernels_2d_independent",
    "Verif.Slicing.slice_kernels_3d"
   ],
   "note": ""
  },
  {
   "property": "C05",
   "status": "partial",
   "theorems": [
    "Verif.Slicing.slice_kernels_out_of_range",
    "Verif.Slicing.slice_kernels_1d_past_end",
    "Verif.Slicing.slice_kernels_1d_negative_wraps",
    "Verif.Slicing.slice_kernels_rank_error"
   ],
   "note": "The property is false as stated for negative starts on 1-D series (torch.take wraps); the exact behaviour is proved, including the counterexample slice_kernels_1d_negative_wraps."
  },
  {
   "property": "C06",
   "status": "proved",
   "theorems": [
    "Verif.Slicing.sample_kernels_1d",
    "Verif.Slicing.sample_kernels_2d_coincident",
    "Verif.Slicing.sample_kernels_2d_independent",
    "Verif.Slicing.sample_kernels_3d"
   ],
   "note": ""
  },
  {
   "property": "C07",
   "status": "partial",
   "theorems": [
    "Verif.Slicing.sample_kernels_offset_meaning",
    "Verif.Slicing.sample_kernels_center_sample_missed"
   ],
   "note": "What the offset guarantees is proved; the claim that offset 0 always contains the centre sample is refuted by sample_kernels_center_sample_missed."
  },
  {
   "property": "C08",
   "status": "partial",
   "theorems": [
    "Verif.Slicing.sample_kernels_1d",
    "Verif.Slicing.sample_kernels_2d_coincident",
    "Verif.Slicing.sample_kernels_2d_independent",
    "Verif.Slicing.sample_kernels_3d",
    "Verif.Slicing.sample_kernels_rejects",
    "Verif.Slicing.sample_kernels_rejects_offset",
    "Verif.Slicing.sample_kernels_zero_returns_len"
   ],
   "note": "N=0 on a 3-D tensor is not rejected (refuted by sample_kernels_zero_returns_len); the rest is proved."
  },
  {
   "property": "C09",
   "status": "partial",
   "theorems": [
    "Verif.Slicing.sample_kernels_reaches_partial",
    "Verif.Slicing.sample_kernels_exact_length_raises",
    "Verif.Slicing.sample_kernels_never_last"
   ],
   "note": "Every start but the last is reachable; reaching the last start and accepting T == kernel_size are refuted."
  },
  {
   "property": "C10",
   "status": "proved",
   "theorems": [
    "Verif.InMemory.in_memory_coincident"
   ],
   "note": ""
  },
  {
   "property": "C11",
   "status": "proved",
   "theorems": [
    "Verif.InMemory.in_memory_coincident",
    "Verif.InMemory.in_memory_init_iff"
   ],
   "note": ""
  },
  {
   "property": "C12",
   "status": "proved",
   "theorems": [
    "Verif.InMemory.in_memory_independent_shuffled",
    "Verif.InMemory.in_memory_independent_ordered",
    "Verif.InMemory.in_memory_float32_index_collision",
    "Verif.InMemory.f32_nearest",
    "Verif.InMemory.in_memory_shuffled_may_repeat"
   ],
   "note": "Two limits are exhibited by counterexamples: shuffled tuples may repeat, and indices above 2^24 collide in float32."
  },
  {
   "property": "C13",
   "status": "proved",
   "theorems": [
    "Verif.InMemory.in_memory_init_iff",
    "Verif.InMemory.len_negative"
   ],
   "note": ""
  },
  {
   "property": "C14",
   "status": "proved",
   "theorems": [
    "Verif.Chunked.chunked_windows",
    "Verif.Chunked.chunked_reaches",
    "Verif.Chunked.chunked_rejects"
   ],
   "note": ""
  },
  {
   "property": "C15",
   "status": "partial",
   "theorems": [
    "Verif.Chunked.chunked_varying_length_wrong_channel",
    "Verif.Chunked.chunked_shorter_chunk_raises"
   ],
   "note": "The property is false: a chunk of another length is sampled with the first chunk's geometry (counterexamples proved)."
  },
  {
   "property": "C16",
   "status": "proved",
   "theorems": [
    "Verif.Hdf5.hdf5_worker_split"
   ],
   "note": ""
  },
  {
   "property": "C17",
   "status": "proved",
   "theorems": [
    "Verif.Hdf5.hdf5_sample_batch",
    "Verif.Hdf5.hdf5_rejects",
    "Verif.Hdf5.hdf5_short_channel_broadcast"
   ],
   "note": ""
  },
  {
   "property": "C18",
   "status": "proved",
   "theorems": [
    "Verif.Snapshotter.snapshotter_stream"
   ],
   "note": ""
  },
  {
   "property": "C19",
   "status": "proved",
   "theorems": [
    "Verif.Snapshotter.snapshotter_groups",
    "Verif.Snapshotter.snapshotter_init_iff",
    "Verif.Snapshotter.snapshotter_batch1_long_update"
   ],
   "note": ""
  },
  {
   "property": "C20",
   "status": "proved",
   "theorems": [
    "Verif.OnlineAverager.online_average_stream",
    "Verif.OnlineAverager.overlap_average_is_mean",
    "Verif.OnlineAverager.online_average_offset_zero"
   ],
   "note": ""
  },
  {
   "property": "C21",
   "status": "proved",
   "theorems": [
    "Verif.Augment.inverter_series",
    "Verif.Augment.reverser_series",
    "Verif.Augment.augment_prob_extremes",
    "Verif.Augment.augment_involution"
   ],
   "note": ""
  },
  {
   "property": "C22",
   "status": "proved",
   "theorems": [
    "Verif.GroupNorm.group_norm_correct",
    "Verif.GroupNorm.group_norm_init_iff",
    "Verif.GroupNorm.group_norm_rank"
   ],
   "note": ""
  },
  {
   "property": "C23",
   "status": "proved",
   "theorems": [
    "Verif.GroupNorm.getters_spec"
   ],
   "note": ""
  },
  {
   "property": "C24",
   "status": "proved",
   "theorems": [
    "Verif.Spectral.median_correct"
   ],
   "note": ""
  },
  {
   "property": "C25",
   "status": "partial",
   "theorems": [
    "Verif.Spectral.shapes_accepted_iff",
    "Verif.Spectral.cross_density_correct",
    "Verif.Spectral.shapes_documented_multichannel_rejected"
   ],
   "note": "One documented shape combination is rejected by the code (counterexample proved)."
  },
  {
   "property": "C26",
   "status": "proved",
   "theorems": [
    "Verif.Spectral.spectral_density_correct",
    "Verif.Spectral.fast_density_correct",
    "Verif.Spectral.spectral_density_affine"
   ],
   "note": ""
  },
  {
   "property": "C27",
   "status": "proved",
   "theorems": [
    "Verif.Spectral.spectral_density_parseval"
   ],
   "note": ""
  },
  {
   "property": "C28",
   "status": "proved",
   "theorems": [
    "Verif.Whiten.truncate_correct",
    "Verif.Whiten.truncate_band",
    "Verif.Whiten.truncate_highpass_keeps_bin_below",
    "Verif.Whiten.truncate_zero_duration"
   ],
   "note": "Exact arithmetic; truncated PSD = 1/(2|H|^2) of the tapered filter. Negation and finding included."
  },
  {
   "property": "C29",
   "status": "proved",
   "theorems": [
    "Verif.Whiten.whiten_correct",
    "Verif.Whiten.whiten_linear",
    "Verif.Whiten.whiten_too_short",
    "Verif.Whiten.normalize_pad_zero_empty",
    "Verif.Whiten.interpLinear_bounds"
   ],
   "note": "Exact arithmetic."
  },
  {
   "property": "C30",
   "status": "partial",
   "theorems": [
    "Verif.Whiten.fixed_whiten_correct",
    "Verif.Whiten.whiten_agrees_fixed_partial",
    "Verif.Whiten.fixed_whiten_rejects",
    "Verif.Whiten.fixed_whiten_rounding",
    "Verif.Whiten.fixed_whiten_zero_overlap",
    "Verif.Whiten.toPsd_welch"
   ],
   "note": "Agreement needs an even filter length and float32 rounding of fduration not changing the pad; findings included."
  },
  {
   "property": "C31",
   "status": "partial",
   "theorems": [
    "Verif.Fittable.callable_iff",
    "Verif.Fittable.call_before_fit",
    "Verif.Fittable.build_values",
    "Verif.Fittable.load_values",
    "Verif.Fittable.load_missing_enables",
    "Verif.Fittable.build_not_atomic"
   ],
   "note": "The 'every buffer loaded' part is false of the code: load_missing_enables is the machine-checked negation."
  },
  {
   "property": "C32",
   "status": "proved",
   "theorems": [
    "Verif.Fittable.scaler_init",
    "Verif.Fittable.scaler_fit_2d",
    "Verif.Fittable.scaler_fit_1d",
    "Verif.Fittable.scaler_fit_rejects",
    "Verif.Fittable.scaler_call",
    "Verif.Fittable.scaler_round_trip",
    "Verif.Fittable.scaler_standardises"
   ],
   "note": "Exact arithmetic."
  },
  {
   "property": "C33",
   "status": "proved",
   "theorems": [
    "Verif.Pearson.pearson_correct",
    "Verif.Pearson.corr_bounded",
    "Verif.Pearson.pearson_bounded",
    "Verif.Pearson.corr_affine",
    "Verif.Pearson.pearson_shape_error",
    "Verif.Pearson.pearson_negative_shift"
   ],
   "note": "Exact arithmetic."
  },
  {
   "property": "C34",
   "status": "proved",
   "theorems": [
    "Verif.Snr.ifo_snr_correct",
    "Verif.Snr.snrSq_smul",
    "Verif.Snr.ifo_snr_smul",
    "Verif.Snr.snr_cut_partition",
    "Verif.Snr.ifo_snr_mask_error",
    "Verif.Snr.ifo_snr_lowpass_mask_error",
    "Verif.Snr.network_snr_correct"
   ],
   "note": "Exact arithmetic."
  },
  {
   "property": "C35",
   "status": "proved",
   "theorems": [
    "Verif.Snr.reweight_reaches",
    "Verif.Snr.rescaler_reaches",
    "Verif.Snr.rescaler_permutes",
    "Verif.Snr.rescaler_rejects"
   ],
   "note": "Exact arithmetic."
  },
  {
   "property": "C36",
   "status": "proved",
   "theorems": [
    "Verif.Geometry.antenna_correct",
    "Verif.Geometry.antenna_unknown_mode",
    "Verif.Geometry.basis_orthonormal",
    "Verif.Geometry.tensors_symmetric_traceless",
    "Verif.Geometry.response_rotation",
    "Verif.Geometry.antenna_psi_symmetry",
    "Verif.Geometry.antenna_bound"
   ],
   "note": ""
  },
  {
   "property": "C37",
   "status": "proved",
   "theorems": [
    "Verif.Geometry.shift_correct",
    "Verif.Geometry.shift_rejects",
    "Verif.Geometry.shift_permutes",
    "Verif.Geometry.delay_bound",
    "Verif.Geometry.known_delay_bound",
    "Verif.Geometry.observed_strain_correct",
    "Verif.Geometry.observed_strain_linear",
    "Verif.Geometry.shift_keeps_snr",
    "Verif.Geometry.shift_drops_waveforms",
    "Verif.Geometry.observed_strain_drops_waveforms"
   ],
   "note": "Includes the negation for a broadcast of sky parameters (waveforms are silently dropped)."
  },
  {
   "property": "C38",
   "status": "proved",
   "theorems": [
    "Verif.Geometry.interferometer_known",
    "Verif.Geometry.interferometer_unknown",
    "Verif.Geometry.interferometer_sane",
    "Verif.Geometry.known_sensitivity",
    "Verif.Geometry.ifo_geometry_correct",
    "Verif.Geometry.ifo_geometry_unknown",
    "Verif.Geometry.projector_correct",
    "Verif.Geometry.projector_unknown_ifo"
   ],
   "note": ""
  },
  {
   "property": "C39",
   "status": "partial",
   "theorems": [
    "Verif.Decimator.decimator_concat_partial",
    "Verif.Decimator.decimator_split_partial",
    "Verif.Decimator.decimator_modes_agree",
    "Verif.Decimator.decimator_gap_wrong",
    "Verif.Decimator.decimator_one_sample_wrong",
    "Verif.Decimator.decimator_first_one_sample",
    "Verif.Decimator.decimator_late_start"
   ],
   "note": "Proved for contiguous schedules from 0 whose segments have at least two samples; the last four are machine-checked negations outside that domain (gaps, one-sample segments, schedules that begin after 0: these are accepted and then reject every series)."
  },
  {
   "property": "C40",
   "status": "proved",
   "theorems": [
    "Verif.Decimator.decimator_rejects",
    "Verif.Decimator.decimator_degenerate",
    "Verif.Decimator.validate_split_overlap",
    "Verif.Decimator.decimator_wrong_length"
   ],
   "note": ""
  },
  {
   "property": "C41",
   "status": "proved",
   "theorems": [
    "Verif.Integrator.tophat_correct",
    "Verif.Integrator.movingAverage_bound",
    "Verif.Integrator.tophat_bounded",
    "Verif.Integrator.movingAverage_linear",
    "Verif.Integrator.tophat_linear"
   ],
   "note": "Exact arithmetic."
  },
  {
   "property": "C42",
   "status": "partial",
   "theorems": [
    "Verif.Integrator.leaky_correct",
    "Verif.Integrator.leaky_ge",
    "Verif.Integrator.leaky_start_zero_partial",
    "Verif.Integrator.leaky_start_wrong",
    "Verif.Integrator.leaky_mode_error"
   ],
   "note": "The recursion and the bound are proved; 'starts from the lower bound' is false of the code unless lower_bound = 0 (leaky_start_wrong is the machine-checked negation)."
  },
  {
   "property": "C43",
   "status": "proved",
   "theorems": [
    "Verif.Spectrogram.multires_correct",
    "Verif.Spectrogram.multires_covers",
    "Verif.Spectrogram.multires_wrong_length",
    "Verif.Spectrogram.kwargs_equal",
    "Verif.Spectrogram.kwargs_broadcast",
    "Verif.Spectrogram.kwargs_reject",
    "Verif.Spectrogram.kwargs_multiple_of_eight",
    "Verif.Spectrogram.init_normalized",
    "Verif.Spectrogram.multires_empty"
   ],
   "note": "torchaudio's Spectrogram is a parameter; kwargs_multiple_of_eight is a machine-checked counterexample to the documented broadcast (set iteration order)."
  },
  {
   "property": "C44",
   "status": "partial",
   "theorems": [
    "Verif.Heterodyne.heterodyne_return_type",
    "Verif.Heterodyne.heterodyne_correct_partial",
    "Verif.Heterodyne.heterodyne_magnitude",
    "Verif.Heterodyne.heterodyne_energy",
    "Verif.Heterodyne.heterodyne_odd_length"
   ],
   "note": "Same length holds for even lengths; heterodyne_odd_length is the machine-checked negation for odd lengths."
  },
  {
   "property": "C45",
   "status": "proved",
   "theorems": [
    "Verif.WaveformSampler.sampler_init",
    "Verif.WaveformSampler.sampler_init_iff",
    "Verif.WaveformSampler.sampler_scalars",
    "Verif.WaveformSampler.sampler_rejects",
    "Verif.WaveformSampler.sampler_aligned",
    "Verif.WaveformSampler.sampler_all",
    "Verif.WaveformSampler.sampler_errors",
    "Verif.WaveformSampler.sampler_repeats"
   ],
   "note": ""
  },
  {
   "property": "C46",
   "status": "proved",
   "theorems": [
    "Verif.Whiten.density_init_iff",
    "Verif.Whiten.density_cross_slow",
    "Verif.Whiten.density_forward"
   ],
   "note": ""
  },
  {
   "property": "C47",
   "status": "proved",
   "theorems": [
    "Verif.Spline.knots_correct",
    "Verif.Spline.knots_unique",
    "Verif.Spline.basis_correct",
    "Verif.Spline.Axis.B_det",
    "Verif.Spline.fit_solvable",
    "Verif.Spline.spline1d_total",
    "Verif.Spline.spline2d_total",
    "Verif.Spline.init1d",
    "Verif.Spline.spline1d_evaluates",
    "Verif.Spline.spline1d_interpolates",
    "Verif.Spline.spline1d_polynomial",
    "Verif.Spline.spline1d_linear",
    "Verif.Spline.spline1d_rejects",
    "Verif.Spline.init2d",
    "Verif.Spline.spline2d_evaluates",
    "Verif.Spline.spline2d_interpolates",
    "Verif.Spline.spline2d_polynomial",
    "Verif.Spline.spline2d_linear",
    "Verif.Spline.spline2d_rejects"
   ],
   "note": "Exact arithmetic, degree at least one, strictly increasing coordinates."
  },
  {
   "property": "C48",
   "status": "partial",
   "theorems": [
    "Verif.Spline.history_no_override_partial",
    "Verif.Spline.history_last_override",
    "Verif.Spline.history_never_constructed",
    "Verif.Spline.override_persists",
    "Verif.Spline.history2d_partial",
    "Verif.Spline.override2d_persists"
   ],
   "note": "False of the code once a call passes its own coordinates (override_persists is the machine-checked negation); proved for histories without overrides, and the actual behaviour is characterised for every history."
  },
  {
   "property": "C49",
   "status": "proved",
   "theorems": [
    "Verif.QTransform.ntiles_pow_two",
    "Verif.QTransform.ntiles_mono",
    "Verif.QTransform.padding_total",
    "Verif.QTransform.padding_nonneg",
    "Verif.QTransform.index_range",
    "Verif.QTransform.index_consecutive",
    "Verif.QTransform.window_shape",
    "Verif.QTransform.window_bisquare",
    "Verif.QTransform.energy_eq",
    "Verif.QTransform.energy_total",
    "Verif.QTransform.forward_ok",
    "Verif.QTransform.forward_dims",
    "Verif.QTransform.normalizer_reject",
    "Verif.QTransform.forward_short",
    "Verif.QTransform.forward_norm_empty",
    "Verif.QTransform.forward_norm_case",
    "Verif.QTransform.normalized_mean",
    "Verif.QTransform.normalized_median",
    "Verif.QTransform.freqs_spec",
    "Verif.QTransform.rawFreq_spacing",
    "Verif.QTransform.default_range_iff",
    "Verif.QTransform.init_ok_iff",
    "Verif.QTransform.default_ntiles",
    "Verif.QTransform.compute_ok",
    "Verif.QTransform.transforms_mono",
    "Verif.QTransform.stackIdx_in_order",
    "Verif.QTransform.setup_ok",
    "Verif.QTransform.setup_reject",
    "Verif.QTransform.setup_reject_value",
    "Verif.QTransform.init_value",
    "Verif.QTransform.init_reject",
    "Verif.QTransform.frange_aliasing",
    "Verif.QTransform.roundEven_spec",
    "Verif.QTransform.half_small",
    "Verif.QTransform.forward_one",
    "Verif.QTransform.forward_zero"
   ],
   "note": "Exact arithmetic; frequencies at least 1/duration. frange_aliasing is a machine-checked finding (the caller's list is overwritten)."
  },
  {
   "property": "C50",
   "status": "proved",
   "theorems": [
    "Verif.QTransform.getQs_spec",
    "Verif.QTransform.scanInit_ok",
    "Verif.QTransform.scanInit_ok_iff",
    "Verif.QTransform.scan_best",
    "Verif.QTransform.scan_empty",
    "Verif.QTransform.maxEnergy_spec",
    "Verif.QTransform.searchTiles_spec",
    "Verif.QTransform.searchTiles_reject",
    "Verif.QTransform.maxEnergy_empty",
    "Verif.QTransform.before_compute",
    "Verif.QTransform.interpolate_image",
    "Verif.QTransform.interpolate_spline",
    "Verif.QTransform.interpolate_squeezes",
    "Verif.QTransform.single_default",
    "Verif.QTransform.scan_default"
   ],
   "note": "Exact arithmetic; argmax is a parameter with its stated property. searchTiles_reject and interpolate_squeezes are machine-checked findings."
  },
  {
   "property": "C51",
   "status": "proved",
   "theorems": [
    "Verif.Distributions.cosine_sample_law",
    "Verif.Distributions.sine_sample_law",
    "Verif.Distributions.logUniform_sample_law",
    "Verif.Distributions.powerLaw_sample_law",
    "Verif.Distributions.powerLaw_zero_index",
    "Verif.Distributions.delta_sample",
    "Verif.Distributions.logNormal_low_ignored"
   ],
   "note": "Samples are functions of the uniform draw; HasLaw states support and, through Lebesgue measure, the exact distribution function. LogNormal: the lower limit is ignored (finding)."
  },
  {
   "property": "C52",
   "status": "partial",
   "theorems": [
    "Verif.Distributions.cosine_log_prob_partial",
    "Verif.Distributions.cosine_log_prob_unnormalised",
    "Verif.Distributions.sine_log_prob_partial",
    "Verif.Distributions.logUniform_log_prob",
    "Verif.Distributions.powerLaw_log_prob",
    "Verif.Distributions.volume_log_prob"
   ],
   "note": "LogUniform and PowerLaw: the logarithm of a normalised density with the distribution function of the samples. Cosine and Sine log_prob lack the normalising constant (proved: integral is sin high - sin low, 2 at the defaults). UniformComovingVolume: log-linear interpolation of a trapezoid-normalised table; NaN in the first cell when the grid contains redshift zero."
  },
  {
   "property": "C53",
   "status": "proved",
   "theorems": [
    "Verif.Distributions.interp_at_node",
    "Verif.Distributions.interp_chord",
    "Verif.Distributions.interp_between",
    "Verif.Distributions.dist_incr",
    "Verif.Distributions.volume_init",
    "Verif.Distributions.volume_init_reject",
    "Verif.Distributions.volume_pdf",
    "Verif.Distributions.volume_cdf",
    "Verif.Distributions.volume_sample_law",
    "Verif.Distributions.volume_log_prob",
    "Verif.Distributions.volume_redshift_gradient"
   ],
   "note": "For positive Hubble constant, matter density in [0,1] and a positive rate."
  },
  {
   "property": "C54",
   "status": "proved",
   "theorems": [
    "Verif.Conversion.toComponents_spec",
    "Verif.Conversion.toComponents_recovers"
   ],
   "note": "Positive chirp mass and mass ratio; exact arithmetic."
  },
  {
   "property": "C55",
   "status": "proved",
   "theorems": [
    "Verif.Conversion.spins_describe",
    "Verif.Conversion.spins_reject",
    "Verif.Conversion.rotations_preserve_norm",
    "Verif.Conversion.startJ_ne_zero"
   ],
   "note": "Excludes a vanishing total angular momentum, where the code divides zero by zero."
  },
  {
   "property": "C56",
   "status": "proved",
   "theorems": [
    "Verif.Generator.unfiltered_ok",
    "Verif.Generator.conditioned_eq",
    "Verif.Generator.taper_width",
    "Verif.Generator.taper_gap",
    "Verif.Generator.df_ok",
    "Verif.Generator.grid",
    "Verif.Generator.chirplen_pow",
    "Verif.Generator.fstart_range",
    "Verif.Generator.stage2_eq",
    "Verif.Generator.coalescence_later",
    "Verif.Generator.forward_eq",
    "Verif.Generator.len_eq_size",
    "Verif.Generator.len_not_size",
    "Verif.Generator.odd_rate_grid",
    "Verif.Generator.empty_batch",
    "Verif.Generator.highpass_ok",
    "Verif.Generator.ramp_range",
    "Verif.Generator.ramp_ends",
    "Verif.Generator.ramp_mono",
    "Verif.Generator.irfft_phase"
   ],
   "note": "exact real arithmetic; approximant and IIR filter are parameters; findings: odd sample rates give a frequency grid coarser than df, and a non-integer duration*sample_rate shorter than the chirp gives one sample more than `size`"
  },
  {
   "property": "C57",
   "status": "proved",
   "theorems": [
    "Verif.CbcUtils.finalSpin_bound",
    "Verif.CbcUtils.mergeTime_bound",
    "Verif.CbcUtils.ringdownTime_bound",
    "Verif.CbcUtils.ringdownTime_pos",
    "Verif.CbcUtils.chirpTime_bound",
    "Verif.CbcUtils.startFrequency_inverts",
    "Verif.CbcUtils.unitRatio_near",
    "Verif.CbcUtils.startFrequency_below",
    "Verif.CbcUtils.frequencyIsco_spec",
    "Verif.CbcUtils.t2Timing2_eq",
    "Verif.CbcUtils.t2Timing4_eq",
    "Verif.CbcUtils.time2PN_eq",
    "Verif.CbcUtils.chirpTime_nonspinning",
    "Verif.CbcUtils.psi4_spin",
    "Verif.CbcUtils.psi3_spin",
    "Verif.CbcUtils.chirpTime_bounds_2PN",
    "Verif.CbcUtils.ringdownTime_efolds"
   ],
   "note": "Exact arithmetic."
  },
  {
   "property": "C58",
   "status": "proved",
   "theorems": [
    "Verif.TaylorF2.Bin.phasing_eq",
    "Verif.TaylorF2.Bin.phasing_deriv",
    "Verif.TaylorF2.Bin.phasing_swap",
    "Verif.TaylorF2.Bin.amplitude_eq",
    "Verif.TaylorF2.Bin.htilde_eq",
    "Verif.TaylorF2.Bin.htilde_ref",
    "Verif.TaylorF2.Bin.htilde_norm",
    "Verif.TaylorF2.Bin.htilde_swap",
    "Verif.TaylorF2.Bin.htilde_distance",
    "Verif.TaylorF2.forward_reject",
    "Verif.TaylorF2.forward_ok",
    "Verif.TaylorF2.bin_masses",
    "Verif.TaylorF2.ratio_swap"
   ],
   "note": "exact real arithmetic, PI = pi; note that the docstring calls the mass ratio m1/m2 but the masses used have m2/m1 equal to it"
  },
  {
   "property": "C59",
   "status": "proved",
   "theorems": [
    "Verif.PhenomD.amp_C1",
    "Verif.PhenomD.regions",
    "Verif.PhenomD.phase_C1",
    "Verif.PhenomD.Ctx.insAmp_deriv",
    "Verif.PhenomD.Ctx.mrdAmp_deriv",
    "Verif.PhenomD.Ctx.intAmp_deriv",
    "Verif.PhenomD.Ctx.ss3_deriv",
    "Verif.PhenomD.Ctx.insPhase_deriv",
    "Verif.PhenomD.Ctx.intPhase_deriv",
    "Verif.PhenomD.Ctx.mrdPhase_deriv",
    "Verif.PhenomD.collocation",
    "Verif.PhenomD.collocation_unique",
    "Verif.PhenomD.Ctx.intAmp_joins",
    "Verif.PhenomD.Ctx.amp_deriv",
    "Verif.PhenomD.Ctx.phase_deriv",
    "Verif.PhenomD.Ctx.phaseSlope_continuous",
    "Verif.PhenomD.Ctx.dAmp_continuous",
    "Verif.PhenomD.Ctx.dPhase_slope",
    "Verif.PhenomD.Ctx.ss3_removes",
    "Verif.PhenomD.Good.peak_stationary",
    "Verif.PhenomD.Good.amp_after_peak",
    "Verif.PhenomD.finalSpin_range",
    "Verif.PhenomD.good",
    "Verif.PhenomD.chiPN_abs",
    "Verif.PhenomD.chiPN_reduced",
    "Verif.PhenomD.chiPN_exchanged",
    "Verif.PhenomD.chiPN_above_one_wrong",
    "Verif.PhenomD.interp_linear",
    "Verif.PhenomD.ring_bounds",
    "Verif.PhenomD.interpFinspin_ok",
    "Verif.PhenomD.interpFinspin_reject",
    "Verif.PhenomD.htilde_eq",
    "Verif.PhenomD.htilde_norm",
    "Verif.PhenomD.htilde_ref",
    "Verif.PhenomD.htilde_distance",
    "Verif.PhenomD.forward_ok",
    "Verif.PhenomD.forward_reject",
    "Verif.PhenomD.forward_spin_reject",
    "Verif.PhenomD.overspun"
   ],
   "note": "For every physical binary (positive masses, |spin| <= 1) the amplitude and phase are C1 at all positive frequencies, joins ordered, tables never left, no RuntimeError. Findings: the returned Dphasing omits the alignment constants C2Int / C2MRD above Mf = 0.018; for mass_ratio > 1 the reduced spin, final spin and amplitude take chi1 as the heavier body's spin while the inspiral phase gives it to the lighter."
  },
  {
   "property": "C60",
   "status": "proved",
   "theorems": [
    "Verif.Adhoc.semi_axes",
    "Verif.Adhoc.sg_shape",
    "Verif.Adhoc.sg_hrss",
    "Verif.Adhoc.sg_linear",
    "Verif.Adhoc.sineGaussian_ok",
    "Verif.Adhoc.ring_kerr",
    "Verif.Adhoc.ring_amplitude",
    "Verif.Adhoc.ring_shape",
    "Verif.Adhoc.ring_cycle",
    "Verif.Adhoc.ring_distance",
    "Verif.Adhoc.ring_face_on",
    "Verif.Adhoc.ringdown_ok",
    "Verif.Adhoc.bsize2_reject"
   ],
   "note": "exact real arithmetic; finding: the ringdown's cross polarization is proportional to sin(inclination), so it vanishes face-on where the literature has 2 cos(inclination)"
  },
  {
   "property": "C61",
   "status": "partial",
   "theorems": [
    "Verif.Autoencoder.match_size_partial",
    "Verif.Autoencoder.match_size_crop_empty",
    "Verif.Autoencoder.decode_input_size"
   ],
   "note": "Proved for targets at least L-1; for shrinking by two or more samples the claim is false of the code (match_size_crop_empty is the machine-checked negation: an empty tensor is returned)."
  },
  {
   "property": "C62",
   "status": "partial",
   "theorems": [
    "Verif.Autoencoder.encode_correct",
    "Verif.Autoencoder.decode_rejects",
    "Verif.Autoencoder.decode_pairing",
    "Verif.Autoencoder.pairing_example",
    "Verif.Autoencoder.decode_no_skip_fails",
    "Verif.Autoencoder.conv_class_activation_fails",
    "Verif.Autoencoder.conv_concat_fails",
    "Verif.Autoencoder.forward_invariant",
    "Verif.Autoencoder.conv_shape_partial",
    "Verif.Autoencoder.conv_one_layer_partial"
   ],
   "note": "The claim is false of the code: without skip connection, with module-class activations, or with concatenating skip connections forward always raises, and skip connections pair the wrong depths (all machine-checked); the shape claim is proved on the remaining domain."
  },
  {
   "property": "C63",
   "status": "proved",
   "theorems": [
    "Verif.Autoencoder.add_skip_correct",
    "Verif.Autoencoder.concat_skip_correct",
    "Verif.Autoencoder.concat_skip_bijection",
    "Verif.Autoencoder.concat_skip_rejects",
    "Verif.Autoencoder.concat_groups_is_plain"
   ],
   "note": ""
  },
  {
   "property": "C64",
   "status": "proved",
   "theorems": [
    "Verif.ResNet.resnet_correct",
    "Verif.ResNet.resnet_even_kernel",
    "Verif.ResNet.resnet_rejects",
    "Verif.ResNet.resnet_stride_type_reject",
    "Verif.ResNet.resnet_one_layer_fails",
    "Verif.ResNet.resnet_basic_dilation"
   ],
   "note": "1-D and 2-D, basic and bottleneck; one-layer networks raise UnboundLocalError (finding)."
  },
  {
   "property": "C65",
   "status": "proved",
   "theorems": [
    "Verif.S4D.s4d_conv_recurrence",
    "Verif.S4D.s4d_zero_order_hold",
    "Verif.S4D.s4d_stable",
    "Verif.S4D.s4d_init",
    "Verif.S4D.s4d_fresh_kernel",
    "Verif.S4D.s4d_layer_correct",
    "Verif.S4D.s4d_causal",
    "Verif.S4D.s4d_layout",
    "Verif.S4D.s4d_errors",
    "Verif.S4D.lnorm_correct",
    "Verif.S4D.model_step_correct",
    "Verif.S4D.model_head_correct",
    "Verif.S4D.s4model_correct"
   ],
   "note": "Exact arithmetic."
  },
  {
   "property": "C66",
   "status": "proved",
   "theorems": [
    "Verif.Spectral.fast_density_exact_above_bin1",
    "Verif.Spectral.hann_bins"
   ],
   "note": ""
  },
  {
   "property": "C67",
   "status": "proved",
   "theorems": [
    "Verif.Whiten.whiten_flat"
   ],
   "note": "Exact arithmetic."
  },
  {
   "property": "C68",
   "status": "proved",
   "theorems": [
    "Verif.PhenomP.polarizations_intensity",
    "Verif.PhenomP.polarizations_circular",
    "Verif.PhenomP.modes_ok",
    "Verif.PhenomP.modes_sum",
    "Verif.PhenomP.spinY_rejects",
    "Verif.PhenomP.wigner_ok",
    "Verif.PhenomP.forward_ok",
    "Verif.PhenomP.amp0_eq",
    "Verif.PhenomP.hAt_eq",
    "Verif.PhenomP.hAt_norm",
    "Verif.PhenomP.distance_law",
    "Verif.PhenomP.goodP"
   ],
   "note": "exact real arithmetic; tensors as lists per batch element and frequency"
  },
  {
   "property": "C69",
   "status": "proved",
   "theorems": [
    "Verif.PhenomP.convert_describes",
    "Verif.PhenomP.convert_thetaJN",
    "Verif.PhenomP.convert_inclination",
    "Verif.PhenomP.chip_eq",
    "Verif.PhenomP.chip_range",
    "Verif.PhenomP.chip_zero_iff",
    "Verif.PhenomP.chip_heavy",
    "Verif.PhenomP.totalJ_eq"
   ],
   "note": ""
  },
  {
   "property": "C70",
   "status": "proved",
   "theorems": [
    "Verif.PhenomP.euler_at_ref",
    "Verif.PhenomP.beta_at_ref",
    "Verif.PhenomP.intensity_at_ref"
   ],
   "note": "the opening-angle part needs no in-plane spin on the lighter body: chi_p replaces the in-plane spins otherwise"
  },
  {
   "property": "C71",
   "status": "partial",
   "theorems": [
    "Verif.PhenomP.aligned_quadrupole",
    "Verif.PhenomP.aligned_circular",
    "Verif.PhenomP.aligned_zeta",
    "Verif.PhenomP.aligned_D_partial",
    "Verif.PhenomP.aligned_D_fails",
    "Verif.PhenomP.coreA_norm",
    "Verif.PhenomP.ctxP_aligned",
    "Verif.PhenomP.swapSq_amp",
    "Verif.PhenomP.aligned_phic_ignored",
    "Verif.PhenomP.face_on"
   ],
   "note": "proved when the squared spins agree or the masses do; false otherwise (aligned_D_fails: phenom_p.py:151-167 passes the two squared spins in the wrong order). Findings: phic has no effect on aligned binaries except exactly face-on (aligned_phic_ignored, face_on)."
  },
  {
   "property": "C72",
   "status": "proved",
   "theorems": [
    "Verif.PhenomP.lookup_ok",
    "Verif.PhenomP.lookup_above",
    "Verif.PhenomP.lookup_below",
    "Verif.PhenomP.finalSpinInplane_range",
    "Verif.PhenomP.spinP_range",
    "Verif.PhenomP.ringdown_physical",
    "Verif.PhenomP.ringdown_reject",
    "Verif.PhenomP.forward_reject",
    "Verif.PhenomP.forward_ok",
    "Verif.PhenomP.exOver_spin"
   ],
   "note": "finding: a final spin at or below -1 silently extrapolates from the far end of the table (lookup_below)"
  },
  {
   "property": "C73",
   "status": "proved",
   "theorems": [
    "Verif.PhenomP.phase_stationary",
    "Verif.PhenomP.tc_law",
    "Verif.PhenomP.tc_not_seconds",
    "Verif.PhenomP.tc_seconds"
   ],
   "note": "finding: tc is not in seconds"
  },
  {
   "property": "C74",
   "status": "partial",
   "theorems": [
    "Verif.PhenomP.orbital_partial",
    "Verif.PhenomP.orbital_claim_false",
    "Verif.PhenomP.orbital2PN_first_law",
    "Verif.PhenomP.l2PNR_pos"
   ],
   "note": "false of the code: the eta^2 v^4 term has the wrong sign; proved that nothing else differs"
  },
  {
   "property": "C75",
   "status": "proved",
   "theorems": [
    "Verif.PhenomP.minimal_rotation",
    "Verif.PhenomP.minimal_rotation_single",
    "Verif.PhenomP.epsC3_eq",
    "Verif.PhenomP.epsC4_eq",
    "Verif.PhenomP.alphaC1_eq",
    "Verif.PhenomP.k1Err_small",
    "Verif.PhenomP.angleSum_deriv"
   ],
   "note": "through relative order v^3; the v^4 coefficient is not claimed"
  },
  {
   "property": "C76",
   "status": "partial",
   "theorems": [
    "Verif.Constants.pi_accuracy",
    "Verif.Constants.mpc_accuracy",
    "Verif.Constants.msun_geometric",
    "Verif.Constants.gt_accuracy",
    "Verif.Constants.clightGpc_is_Mpc"
   ],
   "note": "Decimal literals as rationals. False of clightGpc, which is the speed of light in megaparsecs (not gigaparsecs) per second, and of MSUN at the 1.6e-8 level; both machine-checked."
  },
  {
   "property": "C77",
   "status": "proved",
   "theorems": [
    "Verif.IIRFilter.forward_ok",
    "Verif.IIRFilter.forward_error",
    "Verif.IIRFilter.lfilter_solves",
    "Verif.IIRFilter.solves_unique",
    "Verif.IIRFilter.symmetric",
    "Verif.IIRFilter.injective",
    "Verif.IIRFilter.linear",
    "Verif.IIRFilter.scale_invariant",
    "Verif.IIRFilter.bounded",
    "Verif.IIRFilter.sinusoid",
    "Verif.IIRFilter.ends_differ"
   ],
   "note": "exact real arithmetic; filtfilt/lfilter of torchaudio modelled by their documented meaning; the scipy design is a parameter here (see C78)"
  },
  {
   "property": "C78",
   "status": "proved",
   "theorems": [
    "Verif.Butter.stable",
    "Verif.Butter.response_sq",
    "Verif.Butter.roots_prod",
    "Verif.Butter.denominator",
    "Verif.Butter.numerator",
    "Verif.Generator.highpass_tone",
    "Verif.Generator.highpass_error",
    "Verif.Generator.run_ok",
    "Verif.Generator.gain_hz",
    "Verif.Generator.gain_mono"
   ],
   "note": "exact real arithmetic; SciPy's Butterworth design (buttap, lp2hp_zpk, bilinear_zpk, zpk2tf) is modelled from its formulas"
  },
  {
   "property": "C79",
   "status": "proved",
   "theorems": [
    "Verif.PhenomD.strain_is_stationary_phase",
    "Verif.PhenomD.nonspinning_stationary_phase",
    "Verif.PhenomD.spa_ratio",
    "Verif.PhenomD.match_orders",
    "Verif.TaylorF2.strain_is_stationary_phase"
   ],
   "note": "exact real arithmetic; mass_ratio at most one (first body the heavier), as the fits assume; the 3PN spin-squared term on which amplitude and phase disagree is given explicitly in spa_ratio"
  },
  {
   "property": "C80",
   "status": "proved",
   "theorems": [
    "Verif.QTransform.maxEnergyDim_unknown",
    "Verif.QTransform.maxEnergyDim_before",
    "Verif.QTransform.maxEnergyDim_both",
    "Verif.QTransform.maxEnergyDim_neither",
    "Verif.QTransform.maxEnergyDim_channel",
    "Verif.QTransform.maxEnergyDim_batch",
    "Verif.QTransform.maxEnergyDim_all"
   ],
   "note": "Exact arithmetic."
  },
  {
   "property": "C81",
   "status": "proved",
   "theorems": [
    "Verif.QTransform.interpolate_spline",
    "Verif.QTransform.interpolate_image",
    "Verif.QTransform.splinePlane_node",
    "Verif.QTransform.splinePlane_poly",
    "Verif.QTransform.row_time_spline",
    "Verif.QTransform.row_time_bilinear",
    "Verif.QTransform.through_node",
    "Verif.QTransform.through_beyond",
    "Verif.QTransform.through_poly",
    "Verif.QTransform.through_linear",
    "Verif.QTransform.plane_bounds",
    "Verif.QTransform.plane_bounds_cubic",
    "Verif.QTransform.logspace_spec",
    "Verif.QTransform.interpolate_image_empty",
    "Verif.Resample.linear_between",
    "Verif.Resample.linear_bounds",
    "Verif.Resample.linear_affine",
    "Verif.Resample.linear_same",
    "Verif.Resample.cubic_same",
    "Verif.Resample.cubic_const",
    "Verif.Resample.cubic_weights",
    "Verif.Resample.cubic_bounds",
    "Verif.Resample.cubic_negative",
    "Verif.Resample.cubic_not_affine",
    "Verif.Resample.interp2_ok",
    "Verif.Resample.interp2_reject"
   ],
   "note": "Exact arithmetic; F.interpolate (align_corners=False, no antialiasing) and torch.logspace modelled from their documented formulas. cubic_negative is a finding: the bicubic plane can be negative although energies are not."
  },
  {
   "property": "C82",
   "status": "proved",
   "theorems": [
    "Verif.QTransform.default_spline_iff",
    "Verif.QTransform.freqs_length",
    "Verif.QTransform.default_ntiles",
    "Verif.QTransform.scanInit_ok_iff",
    "Verif.QTransform.single_default",
    "Verif.QTransform.scan_default",
    "Verif.QTransform.default_qs",
    "Verif.QTransform.scan_2s_4096",
    "Verif.QTransform.scan_1s_800",
    "Verif.QTransform.zero_frequency_fails"
   ],
   "note": "Exact arithmetic. scan_1s_800 and zero_frequency_fails are machine-checked findings: defaults that cannot be constructed together, and settings that construct but fail in every call."
  },
  {
   "property": "C83",
   "status": "partial",
   "theorems": [
    "Verif.QTransform.columns_aligned_partial",
    "Verif.QTransform.bilinear_misaligned",
    "Verif.QTransform.row_time_bilinear"
   ],
   "note": "False of the image methods (bilinear_misaligned is the machine-checked negation: rows with different numbers of tiles are read at different times); proved for the spline method."
  },
  {
   "property": "C84",
   "status": "proved",
   "theorems": [
    "Verif.Batch.iir_filter",
    "Verif.Batch.tophat",
    "Verif.Batch.leaky",
    "Verif.Batch.spectral_density",
    "Verif.Batch.cross_density",
    "Verif.Batch.group_norm",
    "Verif.Batch.pearson",
    "Verif.Batch.whiten_shared",
    "Verif.Batch.whiten_batched",
    "Verif.Batch.fixed_whiten",
    "Verif.Batch.ifo_snr_shared",
    "Verif.Batch.network_snr_shared",
    "Verif.Batch.rescaler_mixes",
    "Verif.Batch.projector",
    "Verif.Batch.s4_model",
    "Verif.Batch.decimator",
    "Verif.Batch.spline1d",
    "Verif.Batch.q_spline",
    "Verif.Batch.q_image",
    "Verif.Batch.q_image_not",
    "Verif.Batch.heterodyne"
   ],
   "note": "exact arithmetic; Q transform with the default frequency range; QScan chooses one plane for the whole batch (C62, C82) and is not claimed; training-mode dropout is not claimed"
  },
  {
   "property": "C85",
   "status": "partial",
   "theorems": [
    "Verif.Generator.same_longest_partial",
    "Verif.Generator.companion_matters",
    "Verif.Generator.long_companion"
   ],
   "note": "False of the code: the frequency grid is chosen from the longest chirp of the batch (generator.py:197-204). Proved instead: two batches with equally long longest chirps give the same series to a binary they share (hence order and multiplicity do not matter), and for every generator and every binary there is a valid companion and an approximant with which the series is different, so the condition is not vacuous."
  },
  {
   "property": "C86",
   "status": "proved",
   "theorems": [
    "Verif.BatchWave.taylorF2",
    "Verif.BatchWave.phenomD",
    "Verif.BatchWave.phenomD_accept",
    "Verif.BatchWave.phenomP",
    "Verif.BatchWave.phenomP_accept"
   ],
   "note": "exact arithmetic; the equal-length check of the parameter tensors is C58/C59"
  },
  {
   "property": "C87",
   "status": "partial",
   "theorems": [
    "Verif.Whiten.whiten_local_partial",
    "Verif.Whiten.whiten_agree_partial",
    "Verif.Whiten.whiten_short_local",
    "Verif.Whiten.hann_response_real",
    "Verif.Whiten.short_hann_nonneg",
    "Verif.Whiten.whitened_kernel",
    "Verif.Whiten.whiten_leaks"
   ],
   "note": "False of the code in general: after truncating the impulse response the code keeps only the modulus of its spectrum (spectral.py:436-438), and the modulus of a truncated filter's response is the response of a truncated filter only where it is not negative; whiten_leaks is the machine-checked negation (12 samples, Hann taper, lowpass). Proved for even lengths whenever the truncated response is non-negative, in particular for every PSD when the filter has at most four taps; for Hann tapers the response is proved real. Odd lengths: only the circular-convolution form (whitened_kernel)."
  },
  {
   "property": "C88",
   "status": "proved",
   "theorems": [
    "Verif.PhenomP.polarizations_turned",
    "Verif.PhenomP.forward_turned",
    "Verif.PhenomP.convert_turn"
   ],
   "note": "When the total angular momentum has no in-plane component (for example aligned spins) the source frame is not turned; see C71 (aligned_phic_ignored)."
  },
  {
   "property": "C89",
   "status": "proved",
   "theorems": [
    "Verif.Spectral.cross_swap",
    "Verif.Spectral.cross_self",
    "Verif.Spectral.coherence_le_one",
    "Verif.Spectral.coherence_le_one_shared",
    "Verif.Spectral.coherence_median_unbounded"
   ],
   "note": "Finding: with average='median' (the function's default) no bound of this kind exists: coherence_median_unbounded exhibits, for every B, two series whose coherence exceeds B."
  },
  {
   "property": "C90",
   "status": "partial",
   "theorems": [
    "Verif.Hdf5.every_batch_reachable_partial",
    "Verif.Hdf5.slot_inj",
    "Verif.Hdf5.last_window_never"
   ],
   "note": "Proved for starts that leave at least one sample after the window. False of the last window of each dataset: randint excludes size - kernel_size (hdf5_dataset.py:159, 179, 184), so it is never returned (last_window_never is the machine-checked negation, for every data set)."
  },
  {
   "property": "C91",
   "status": "proved",
   "theorems": [
    "Verif.SpectralNoise.median_unbiased",
    "Verif.SpectralNoise.density_expectation",
    "Verif.SpectralNoise.spectral_density_unbiased",
    "Verif.SpectralNoise.lowest_bins_biased",
    "Verif.SpectralNoise.spectral_density_unbiased_median"
   ],
   "note": "Expectation is Mathlib's Bochner integral over an arbitrary probability space on which the input tensor is a random variable; integrability is part of the conclusion. White / GaussianWhite are in Spec/SpectralNoise.lean. Overlapping segments with the median average are not claimed (the segments are then correlated and the correction is not exact)."
  },
  {
   "property": "C92",
   "status": "proved",
   "theorems": [
    "Verif.Snr.snr_of_magnitudes",
    "Verif.Snr.snr_shift_invariant",
    "Verif.Snr.snr_augment_invariant"
   ],
   "note": "Real arithmetic. The circular shift keeps every sample, so nothing is lost at the edges."
  },
  {
   "property": "C93",
   "status": "proved",
   "theorems": [
    "Verif.Slicing.sample_uniform_1d",
    "Verif.Slicing.sample_uniform_2d_coincident",
    "Verif.Slicing.sample_uniform_2d_independent",
    "Verif.Slicing.sample_uniform_3d",
    "Verif.Slicing.sample_batch_probability_1d",
    "Verif.Slicing.sample_batch_probability_2d_coincident",
    "Verif.Slicing.sample_batch_probability_2d_independent",
    "Verif.Slicing.sample_batch_probability_3d",
    "Verif.Chunked.chunked_draws",
    "Verif.Chunked.chunked_every_epoch"
   ],
   "note": "That torch.randint is itself uniform is the hypothesis UniformDraws (Spec/UniformDraws.lean; shown satisfiable for every n). The admissible starts exclude the last window (C09)."
  },
  {
   "property": "C94",
   "status": "proved",
   "theorems": [
    "Verif.Whiten.whiten_noise",
    "Verif.Whiten.whiten_matched",
    "Verif.Whiten.whiten_white",
    "Verif.Whiten.whiten_white_odd_bins"
   ],
   "note": "Stationary (on the circle of N samples) and White are in Spec/SpectralNoise.lean; the filter's gain is the response of Spec/Whiten.lean's truncated filter. Real arithmetic."
  },
  {
   "property": "C95",
   "status": "proved",
   "theorems": [
    "Verif.QTransform.tiles_shift",
    "Verif.QTransform.tiles_scale"
   ],
   "note": "In exact arithmetic; rows whose window is clamped at the ends of the spectrum are excluded by the hypothesis Inside."
  },
  {
   "property": "C96",
   "status": "partial",
   "theorems": [
    "Verif.QTransform.tiles_tone_partial",
    "Verif.QTransform.tone_off_centre",
    "Verif.QTransform.response_lt"
   ],
   "note": "False of the code as stated: get_data_indices adds one, so the response is centred one spectral bin (1/duration Hz) above the frequency of the row. tiles_tone_partial proves the closed form with that offset, and tone_off_centre that in every row inside the spectrum a tone at the frequency of the row gives strictly less energy than one a bin higher."
  },
  {
   "property": "C97",
   "status": "proved",
   "theorems": [
    "Verif.ResNet.fresh_block",
    "Verif.ResNet.fresh_block_identity",
    "Verif.ResNet.fresh_network",
    "Verif.ResNet.default_zeroing",
    "Verif.ResNet.no_flag_no_identity"
   ],
   "note": "no_flag_no_identity shows that without the flag a fresh block need not be the identity."
  },
  {
   "property": "C98",
   "status": "proved",
   "theorems": [
    "Verif.ResNet.resnet_batch",
    "Verif.ResNet.default_batchFree",
    "Verif.ResNet.standard_batch",
    "Verif.ResNet.standard_batch2",
    "Verif.ResNet.batch_mean_mixes"
   ],
   "note": "Convolutions, pooling, group norm and the linear layer are modelled numerically (exact arithmetic). batch_mean_mixes shows that the hypothesis on the norm layer is needed."
  },
  {
   "property": "C99",
   "status": "proved",
   "theorems": [
    "Verif.PhenomD.published_model",
    "Verif.PhenomD.published_final_state",
    "Verif.PhenomD.kerr_table",
    "Verif.PhenomD.kerr_smooth"
   ],
   "note": "Spec/PhenomDModel.lean holds the published ansatz and tables, written from the literature to its printed digits. For mass_ratio > 1 the reduced spin is evaluated with exchanged spins (C59, chiPN_above_one_wrong). Table entries within 0.02 of extremal spin are only bounded and monotone (C59)."
  },
  {
   "property": "C100",
   "status": "proved",
   "theorems": [
    "Verif.ResNet.block_conv_1d",
    "Verif.ResNet.block_conv_2d",
    "Verif.ResNet.stem_1d",
    "Verif.ResNet.stem_2d",
    "Verif.ResNet.pool_1d",
    "Verif.ResNet.pool_2d",
    "Verif.ResNet.group_norm_2d",
    "Verif.ResNet.head_1d",
    "Verif.ResNet.head_2d"
   ],
   "note": "The torch layers' index arithmetic (stride, padding, dilation, groups, empty pooling positions) is in Model/Conv.lean; real arithmetic. The one-dimensional norm is C22."
  },
  {
   "property": "C101",
   "status": "proved",
   "theorems": [
    "Verif.Distributions.volume_distances",
    "Verif.Distributions.uniform_in_comoving_volume"
   ],
   "note": "Real arithmetic. Between grid points the density is interpolated (C53)."
  },
  {
   "property": "C102",
   "status": "proved",
   "theorems": [
    "Verif.PhenomP.alpha_pn_rate",
    "Verif.PhenomP.eps_pn_rate"
   ],
   "note": "Real arithmetic. The statement is an expansion at low velocity: that is what the published coefficients are. alphaAt and epsAt are the angles the polarizations are built from (C75 and the theorems of Props/PhenomPWave)."
  },
  {
   "property": "C103",
   "status": "proved",
   "theorems": [
    "Verif.TaylorF2.phase_solves_balance",
    "Verif.TaylorF2.phase_solves_balance_nonspinning",
    "Verif.PhenomD.phase_solves_balance",
    "Verif.PhenomP.phase_solves_balance"
   ],
   "note": "Real arithmetic; an expansion at low frequency, as the published series are. The energy and the flux are in Spec/Balance, written from the literature; the 3.5PN spin-orbit term of the energy was also recomputed from the effective-one-body spin-orbit Hamiltonian outside Lean."
  },
  {
   "property": "C104",
   "status": "proved",
   "theorems": [
    "Verif.CbcUtils.chirpTime_bounds_balance"
   ],
   "note": "Real arithmetic. Asymptotic in the starting frequency: at high frequency the post-Newtonian flux is not even positive. The bound against the 2PN time at every frequency is in C57."
  },
  {
   "property": "C105",
   "status": "partial",
   "theorems": [
    "Verif.TaylorF2.ratio_swap",
    "Verif.PhenomD.exchange_equal_spins_partial",
    "Verif.PhenomD.exchange_modulus",
    "Verif.PhenomD.exchange_fails"
   ],
   "note": "Proved for TaylorF2, and for IMRPhenomD with equal spins. False for IMRPhenomD otherwise (exchange_fails): the amplitude, the reduced spin and the final spin always give chi1 to the heavier body (exchange_modulus), the post-Newtonian phase gives it to mass_1, which is the lighter one for mass_ratio > 1 (phenom_d.py:91-109). So mass_ratio > 1 mixes two binaries."
  },
  {
   "property": "C106",
   "status": "proved",
   "theorems": [
    "Verif.TaylorF2.scale_free",
    "Verif.PhenomD.scale_free",
    "Verif.PhenomP.scale_free"
   ],
   "note": "tc of IMRPhenomPv2 is kept: the code measures it in units of the total mass (C73). Over the reals."
  },
  {
   "property": "C107",
   "status": "proved",
   "theorems": [
    "Verif.TaylorF2.turn_source",
    "Verif.TaylorF2.half_turn",
    "Verif.TaylorF2.mirror_source",
    "Verif.TaylorF2.ellipse",
    "Verif.PhenomD.turn_source",
    "Verif.PhenomD.half_turn",
    "Verif.PhenomD.mirror_source",
    "Verif.PhenomD.ellipse"
   ],
   "note": "Exact arithmetic. For IMRPhenomPv2 see C68, C71 and C88."
  }
 ]
}