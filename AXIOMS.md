# Axioms of every theorem named in MANIFEST.json

Output of `#print axioms`, grouped. No theorem uses any other axiom.

## none (2)

`Verif.Adhoc.bsize2_reject`, `Verif.InMemory.len_negative`

## propext (14)

`Verif.Autoencoder.pairing_example`, `Verif.Chunked.chunked_shorter_chunk_raises`, `Verif.Decimator.decimator_gap_wrong`, `Verif.Decimator.decimator_one_sample_wrong`, `Verif.Fittable.call_before_fit`, `Verif.Hdf5.hdf5_short_channel_broadcast`, `Verif.InMemory.in_memory_float32_index_collision`, `Verif.InMemory.in_memory_shuffled_may_repeat`, `Verif.Slicing.sample_kernels_center_sample_missed`, `Verif.Slicing.sample_kernels_rejects`, `Verif.Slicing.sample_kernels_zero_returns_len`, `Verif.Slicing.slice_kernels_1d_negative_wraps`, `Verif.Snapshotter.snapshotter_batch1_long_update`, `Verif.WaveformSampler.sampler_scalars`

## propext, Quot.sound (21)

`Verif.Autoencoder.decode_no_skip_fails`, `Verif.Autoencoder.decode_rejects`, `Verif.Batch.decimator`, `Verif.Chunked.chunked_varying_length_wrong_channel`, `Verif.Decimator.decimator_wrong_length`, `Verif.Fittable.build_values`, `Verif.Generator.coalescence_later`, `Verif.GroupNorm.getters_spec`, `Verif.GroupNorm.group_norm_init_iff`, `Verif.Hdf5.hdf5_rejects`, `Verif.Hdf5.hdf5_worker_split`, `Verif.InMemory.f32_nearest`, `Verif.InMemory.in_memory_init_iff`, `Verif.Slicing.unfold_windows_cover`, `Verif.Snapshotter.snapshotter_init_iff`, `Verif.Spectrogram.init_normalized`, `Verif.WaveformSampler.sampler_all`, `Verif.WaveformSampler.sampler_errors`, `Verif.WaveformSampler.sampler_init`, `Verif.WaveformSampler.sampler_init_iff`, `Verif.WaveformSampler.sampler_rejects`

## propext, Classical.choice, Quot.sound (636)

`Verif.Adhoc.ring_amplitude`, `Verif.Adhoc.ring_cycle`, `Verif.Adhoc.ring_distance`, `Verif.Adhoc.ring_face_on`, `Verif.Adhoc.ring_kerr`, `Verif.Adhoc.ring_shape`, `Verif.Adhoc.ringdown_ok`, `Verif.Adhoc.semi_axes`, `Verif.Adhoc.sg_hrss`, `Verif.Adhoc.sg_linear`, `Verif.Adhoc.sg_shape`, `Verif.Adhoc.sineGaussian_ok`, `Verif.Augment.augment_involution`, `Verif.Augment.augment_prob_extremes`, `Verif.Augment.inverter_series`, `Verif.Augment.reverser_series`, `Verif.Autoencoder.add_skip_correct`, `Verif.Autoencoder.concat_groups_is_plain`, `Verif.Autoencoder.concat_skip_bijection`, `Verif.Autoencoder.concat_skip_correct`, `Verif.Autoencoder.concat_skip_rejects`, `Verif.Autoencoder.conv_class_activation_fails`, `Verif.Autoencoder.conv_concat_fails`, `Verif.Autoencoder.conv_one_layer_partial`, `Verif.Autoencoder.conv_shape_partial`, `Verif.Autoencoder.decode_input_size`, `Verif.Autoencoder.decode_pairing`, `Verif.Autoencoder.encode_correct`, `Verif.Autoencoder.forward_invariant`, `Verif.Autoencoder.match_size_crop_empty`, `Verif.Autoencoder.match_size_partial`, `Verif.Batch.cross_density`, `Verif.Batch.fixed_whiten`, `Verif.Batch.group_norm`, `Verif.Batch.heterodyne`, `Verif.Batch.ifo_snr_shared`, `Verif.Batch.iir_filter`, `Verif.Batch.leaky`, `Verif.Batch.network_snr_shared`, `Verif.Batch.pearson`, `Verif.Batch.projector`, `Verif.Batch.q_image`, `Verif.Batch.q_image_not`, `Verif.Batch.q_spline`, `Verif.Batch.rescaler_mixes`, `Verif.Batch.s4_model`, `Verif.Batch.spectral_density`, `Verif.Batch.spline1d`, `Verif.Batch.tophat`, `Verif.Batch.whiten_batched`, `Verif.Batch.whiten_shared`, `Verif.BatchWave.phenomD`, `Verif.BatchWave.phenomD_accept`, `Verif.BatchWave.phenomP`, `Verif.BatchWave.phenomP_accept`, `Verif.BatchWave.taylorF2`, `Verif.Butter.denominator`, `Verif.Butter.numerator`, `Verif.Butter.response_sq`, `Verif.Butter.roots_prod`, `Verif.Butter.stable`, `Verif.CbcUtils.chirpTime_bound`, `Verif.CbcUtils.chirpTime_bounds_2PN`, `Verif.CbcUtils.chirpTime_bounds_balance`, `Verif.CbcUtils.chirpTime_nonspinning`, `Verif.CbcUtils.finalSpin_bound`, `Verif.CbcUtils.frequencyIsco_spec`, `Verif.CbcUtils.mergeTime_bound`, `Verif.CbcUtils.psi3_spin`, `Verif.CbcUtils.psi4_spin`, `Verif.CbcUtils.ringdownTime_bound`, `Verif.CbcUtils.ringdownTime_efolds`, `Verif.CbcUtils.ringdownTime_pos`, `Verif.CbcUtils.startFrequency_below`, `Verif.CbcUtils.startFrequency_inverts`, `Verif.CbcUtils.t2Timing2_eq`, `Verif.CbcUtils.t2Timing4_eq`, `Verif.CbcUtils.time2PN_eq`, `Verif.CbcUtils.unitRatio_near`, `Verif.Chunked.chunked_draws`, `Verif.Chunked.chunked_every_epoch`, `Verif.Chunked.chunked_reaches`, `Verif.Chunked.chunked_rejects`, `Verif.Chunked.chunked_windows`, `Verif.Constants.clightGpc_is_Mpc`, `Verif.Constants.gt_accuracy`, `Verif.Constants.mpc_accuracy`, `Verif.Constants.msun_geometric`, `Verif.Constants.pi_accuracy`, `Verif.Conversion.rotations_preserve_norm`, `Verif.Conversion.spins_describe`, `Verif.Conversion.spins_reject`, `Verif.Conversion.startJ_ne_zero`, `Verif.Conversion.toComponents_recovers`, `Verif.Conversion.toComponents_spec`, `Verif.Decimator.decimator_concat_partial`, `Verif.Decimator.decimator_degenerate`, `Verif.Decimator.decimator_first_one_sample`, `Verif.Decimator.decimator_late_start`, `Verif.Decimator.decimator_modes_agree`, `Verif.Decimator.decimator_rejects`, `Verif.Decimator.decimator_split_partial`, `Verif.Decimator.validate_split_overlap`, `Verif.Distributions.cosine_log_prob_partial`, `Verif.Distributions.cosine_log_prob_unnormalised`, `Verif.Distributions.cosine_sample_law`, `Verif.Distributions.delta_sample`, `Verif.Distributions.dist_incr`, `Verif.Distributions.interp_at_node`, `Verif.Distributions.interp_between`, `Verif.Distributions.interp_chord`, `Verif.Distributions.logNormal_low_ignored`, `Verif.Distributions.logUniform_log_prob`, `Verif.Distributions.logUniform_sample_law`, `Verif.Distributions.powerLaw_log_prob`, `Verif.Distributions.powerLaw_sample_law`, `Verif.Distributions.powerLaw_zero_index`, `Verif.Distributions.sine_log_prob_partial`, `Verif.Distributions.sine_sample_law`, `Verif.Distributions.uniform_in_comoving_volume`, `Verif.Distributions.volume_cdf`, `Verif.Distributions.volume_distances`, `Verif.Distributions.volume_init`, `Verif.Distributions.volume_init_reject`, `Verif.Distributions.volume_log_prob`, `Verif.Distributions.volume_pdf`, `Verif.Distributions.volume_redshift_gradient`, `Verif.Distributions.volume_sample_law`, `Verif.Fittable.build_not_atomic`, `Verif.Fittable.callable_iff`, `Verif.Fittable.load_missing_enables`, `Verif.Fittable.load_values`, `Verif.Fittable.scaler_call`, `Verif.Fittable.scaler_fit_1d`, `Verif.Fittable.scaler_fit_2d`, `Verif.Fittable.scaler_fit_rejects`, `Verif.Fittable.scaler_init`, `Verif.Fittable.scaler_round_trip`, `Verif.Fittable.scaler_standardises`, `Verif.Generator.chirplen_pow`, `Verif.Generator.companion_matters`, `Verif.Generator.conditioned_eq`, `Verif.Generator.df_ok`, `Verif.Generator.empty_batch`, `Verif.Generator.forward_eq`, `Verif.Generator.fstart_range`, `Verif.Generator.gain_hz`, `Verif.Generator.gain_mono`, `Verif.Generator.grid`, `Verif.Generator.highpass_error`, `Verif.Generator.highpass_ok`, `Verif.Generator.highpass_tone`, `Verif.Generator.irfft_phase`, `Verif.Generator.len_eq_size`, `Verif.Generator.len_not_size`, `Verif.Generator.long_companion`, `Verif.Generator.odd_rate_grid`, `Verif.Generator.ramp_ends`, `Verif.Generator.ramp_mono`, `Verif.Generator.ramp_range`, `Verif.Generator.run_ok`, `Verif.Generator.same_longest_partial`, `Verif.Generator.stage2_eq`, `Verif.Generator.taper_gap`, `Verif.Generator.taper_width`, `Verif.Generator.unfiltered_ok`, `Verif.Geometry.antenna_bound`, `Verif.Geometry.antenna_correct`, `Verif.Geometry.antenna_psi_symmetry`, `Verif.Geometry.antenna_unknown_mode`, `Verif.Geometry.basis_orthonormal`, `Verif.Geometry.delay_bound`, `Verif.Geometry.ifo_geometry_correct`, `Verif.Geometry.ifo_geometry_unknown`, `Verif.Geometry.interferometer_known`, `Verif.Geometry.interferometer_sane`, `Verif.Geometry.interferometer_unknown`, `Verif.Geometry.known_delay_bound`, `Verif.Geometry.known_sensitivity`, `Verif.Geometry.observed_strain_correct`, `Verif.Geometry.observed_strain_drops_waveforms`, `Verif.Geometry.observed_strain_linear`, `Verif.Geometry.projector_correct`, `Verif.Geometry.projector_unknown_ifo`, `Verif.Geometry.response_rotation`, `Verif.Geometry.shift_correct`, `Verif.Geometry.shift_drops_waveforms`, `Verif.Geometry.shift_keeps_snr`, `Verif.Geometry.shift_permutes`, `Verif.Geometry.shift_rejects`, `Verif.Geometry.tensors_symmetric_traceless`, `Verif.GroupNorm.group_norm_correct`, `Verif.GroupNorm.group_norm_rank`, `Verif.Hdf5.every_batch_reachable_partial`, `Verif.Hdf5.hdf5_sample_batch`, `Verif.Hdf5.last_window_never`, `Verif.Hdf5.slot_inj`, `Verif.Heterodyne.heterodyne_correct_partial`, `Verif.Heterodyne.heterodyne_energy`, `Verif.Heterodyne.heterodyne_magnitude`, `Verif.Heterodyne.heterodyne_odd_length`, `Verif.Heterodyne.heterodyne_return_type`, `Verif.IIRFilter.bounded`, `Verif.IIRFilter.ends_differ`, `Verif.IIRFilter.forward_error`, `Verif.IIRFilter.forward_ok`, `Verif.IIRFilter.injective`, `Verif.IIRFilter.lfilter_solves`, `Verif.IIRFilter.linear`, `Verif.IIRFilter.scale_invariant`, `Verif.IIRFilter.sinusoid`, `Verif.IIRFilter.solves_unique`, `Verif.IIRFilter.symmetric`, `Verif.InMemory.in_memory_coincident`, `Verif.InMemory.in_memory_independent_ordered`, `Verif.InMemory.in_memory_independent_shuffled`, `Verif.Integrator.leaky_correct`, `Verif.Integrator.leaky_ge`, `Verif.Integrator.leaky_mode_error`, `Verif.Integrator.leaky_start_wrong`, `Verif.Integrator.leaky_start_zero_partial`, `Verif.Integrator.movingAverage_bound`, `Verif.Integrator.movingAverage_linear`, `Verif.Integrator.tophat_bounded`, `Verif.Integrator.tophat_correct`, `Verif.Integrator.tophat_linear`, `Verif.OnlineAverager.online_average_offset_zero`, `Verif.OnlineAverager.online_average_stream`, `Verif.OnlineAverager.overlap_average_is_mean`, `Verif.Pearson.corr_affine`, `Verif.Pearson.corr_bounded`, `Verif.Pearson.pearson_bounded`, `Verif.Pearson.pearson_correct`, `Verif.Pearson.pearson_negative_shift`, `Verif.Pearson.pearson_shape_error`, `Verif.PhenomD.Ctx.amp_deriv`, `Verif.PhenomD.Ctx.dAmp_continuous`, `Verif.PhenomD.Ctx.dPhase_slope`, `Verif.PhenomD.Ctx.insAmp_deriv`, `Verif.PhenomD.Ctx.insPhase_deriv`, `Verif.PhenomD.Ctx.intAmp_deriv`, `Verif.PhenomD.Ctx.intAmp_joins`, `Verif.PhenomD.Ctx.intPhase_deriv`, `Verif.PhenomD.Ctx.mrdAmp_deriv`, `Verif.PhenomD.Ctx.mrdPhase_deriv`, `Verif.PhenomD.Ctx.phaseSlope_continuous`, `Verif.PhenomD.Ctx.phase_deriv`, `Verif.PhenomD.Ctx.ss3_deriv`, `Verif.PhenomD.Ctx.ss3_removes`, `Verif.PhenomD.Good.amp_after_peak`, `Verif.PhenomD.Good.peak_stationary`, `Verif.PhenomD.amp_C1`, `Verif.PhenomD.chiPN_above_one_wrong`, `Verif.PhenomD.chiPN_abs`, `Verif.PhenomD.chiPN_exchanged`, `Verif.PhenomD.chiPN_reduced`, `Verif.PhenomD.collocation`, `Verif.PhenomD.collocation_unique`, `Verif.PhenomD.ellipse`, `Verif.PhenomD.exchange_equal_spins_partial`, `Verif.PhenomD.exchange_fails`, `Verif.PhenomD.exchange_modulus`, `Verif.PhenomD.finalSpin_range`, `Verif.PhenomD.forward_ok`, `Verif.PhenomD.forward_reject`, `Verif.PhenomD.forward_spin_reject`, `Verif.PhenomD.good`, `Verif.PhenomD.half_turn`, `Verif.PhenomD.htilde_distance`, `Verif.PhenomD.htilde_eq`, `Verif.PhenomD.htilde_norm`, `Verif.PhenomD.htilde_ref`, `Verif.PhenomD.interpFinspin_ok`, `Verif.PhenomD.interpFinspin_reject`, `Verif.PhenomD.interp_linear`, `Verif.PhenomD.kerr_smooth`, `Verif.PhenomD.kerr_table`, `Verif.PhenomD.match_orders`, `Verif.PhenomD.mirror_source`, `Verif.PhenomD.nonspinning_stationary_phase`, `Verif.PhenomD.overspun`, `Verif.PhenomD.phase_C1`, `Verif.PhenomD.phase_solves_balance`, `Verif.PhenomD.published_final_state`, `Verif.PhenomD.published_model`, `Verif.PhenomD.regions`, `Verif.PhenomD.ring_bounds`, `Verif.PhenomD.scale_free`, `Verif.PhenomD.spa_ratio`, `Verif.PhenomD.strain_is_stationary_phase`, `Verif.PhenomD.turn_source`, `Verif.PhenomP.aligned_D_fails`, `Verif.PhenomP.aligned_D_partial`, `Verif.PhenomP.aligned_circular`, `Verif.PhenomP.aligned_phic_ignored`, `Verif.PhenomP.aligned_quadrupole`, `Verif.PhenomP.aligned_zeta`, `Verif.PhenomP.alphaC1_eq`, `Verif.PhenomP.alpha_pn_rate`, `Verif.PhenomP.amp0_eq`, `Verif.PhenomP.angleSum_deriv`, `Verif.PhenomP.beta_at_ref`, `Verif.PhenomP.chip_eq`, `Verif.PhenomP.chip_heavy`, `Verif.PhenomP.chip_range`, `Verif.PhenomP.chip_zero_iff`, `Verif.PhenomP.convert_describes`, `Verif.PhenomP.convert_inclination`, `Verif.PhenomP.convert_thetaJN`, `Verif.PhenomP.convert_turn`, `Verif.PhenomP.coreA_norm`, `Verif.PhenomP.ctxP_aligned`, `Verif.PhenomP.distance_law`, `Verif.PhenomP.epsC3_eq`, `Verif.PhenomP.epsC4_eq`, `Verif.PhenomP.eps_pn_rate`, `Verif.PhenomP.euler_at_ref`, `Verif.PhenomP.exOver_spin`, `Verif.PhenomP.face_on`, `Verif.PhenomP.finalSpinInplane_range`, `Verif.PhenomP.forward_ok`, `Verif.PhenomP.forward_reject`, `Verif.PhenomP.forward_turned`, `Verif.PhenomP.goodP`, `Verif.PhenomP.hAt_eq`, `Verif.PhenomP.hAt_norm`, `Verif.PhenomP.intensity_at_ref`, `Verif.PhenomP.k1Err_small`, `Verif.PhenomP.l2PNR_pos`, `Verif.PhenomP.lookup_above`, `Verif.PhenomP.lookup_below`, `Verif.PhenomP.lookup_ok`, `Verif.PhenomP.minimal_rotation`, `Verif.PhenomP.minimal_rotation_single`, `Verif.PhenomP.modes_ok`, `Verif.PhenomP.modes_sum`, `Verif.PhenomP.orbital2PN_first_law`, `Verif.PhenomP.orbital_claim_false`, `Verif.PhenomP.orbital_partial`, `Verif.PhenomP.phase_solves_balance`, `Verif.PhenomP.phase_stationary`, `Verif.PhenomP.polarizations_circular`, `Verif.PhenomP.polarizations_intensity`, `Verif.PhenomP.polarizations_turned`, `Verif.PhenomP.ringdown_physical`, `Verif.PhenomP.ringdown_reject`, `Verif.PhenomP.scale_free`, `Verif.PhenomP.spinP_range`, `Verif.PhenomP.spinY_rejects`, `Verif.PhenomP.swapSq_amp`, `Verif.PhenomP.tc_law`, `Verif.PhenomP.tc_not_seconds`, `Verif.PhenomP.tc_seconds`, `Verif.PhenomP.totalJ_eq`, `Verif.PhenomP.wigner_ok`, `Verif.QTransform.before_compute`, `Verif.QTransform.bilinear_misaligned`, `Verif.QTransform.columns_aligned_partial`, `Verif.QTransform.compute_ok`, `Verif.QTransform.default_ntiles`, `Verif.QTransform.default_qs`, `Verif.QTransform.default_range_iff`, `Verif.QTransform.default_spline_iff`, `Verif.QTransform.energy_eq`, `Verif.QTransform.energy_total`, `Verif.QTransform.forward_dims`, `Verif.QTransform.forward_norm_case`, `Verif.QTransform.forward_norm_empty`, `Verif.QTransform.forward_ok`, `Verif.QTransform.forward_one`, `Verif.QTransform.forward_short`, `Verif.QTransform.forward_zero`, `Verif.QTransform.frange_aliasing`, `Verif.QTransform.freqs_length`, `Verif.QTransform.freqs_spec`, `Verif.QTransform.getQs_spec`, `Verif.QTransform.half_small`, `Verif.QTransform.index_consecutive`, `Verif.QTransform.index_range`, `Verif.QTransform.init_ok_iff`, `Verif.QTransform.init_reject`, `Verif.QTransform.init_value`, `Verif.QTransform.interpolate_image`, `Verif.QTransform.interpolate_image_empty`, `Verif.QTransform.interpolate_spline`, `Verif.QTransform.interpolate_squeezes`, `Verif.QTransform.logspace_spec`, `Verif.QTransform.maxEnergyDim_all`, `Verif.QTransform.maxEnergyDim_batch`, `Verif.QTransform.maxEnergyDim_before`, `Verif.QTransform.maxEnergyDim_both`, `Verif.QTransform.maxEnergyDim_channel`, `Verif.QTransform.maxEnergyDim_neither`, `Verif.QTransform.maxEnergyDim_unknown`, `Verif.QTransform.maxEnergy_empty`, `Verif.QTransform.maxEnergy_spec`, `Verif.QTransform.normalized_mean`, `Verif.QTransform.normalized_median`, `Verif.QTransform.normalizer_reject`, `Verif.QTransform.ntiles_mono`, `Verif.QTransform.ntiles_pow_two`, `Verif.QTransform.padding_nonneg`, `Verif.QTransform.padding_total`, `Verif.QTransform.plane_bounds`, `Verif.QTransform.plane_bounds_cubic`, `Verif.QTransform.rawFreq_spacing`, `Verif.QTransform.response_lt`, `Verif.QTransform.roundEven_spec`, `Verif.QTransform.row_time_bilinear`, `Verif.QTransform.row_time_spline`, `Verif.QTransform.scanInit_ok`, `Verif.QTransform.scanInit_ok_iff`, `Verif.QTransform.scan_1s_800`, `Verif.QTransform.scan_2s_4096`, `Verif.QTransform.scan_best`, `Verif.QTransform.scan_default`, `Verif.QTransform.scan_empty`, `Verif.QTransform.searchTiles_reject`, `Verif.QTransform.searchTiles_spec`, `Verif.QTransform.setup_ok`, `Verif.QTransform.setup_reject`, `Verif.QTransform.setup_reject_value`, `Verif.QTransform.single_default`, `Verif.QTransform.splinePlane_node`, `Verif.QTransform.splinePlane_poly`, `Verif.QTransform.stackIdx_in_order`, `Verif.QTransform.through_beyond`, `Verif.QTransform.through_linear`, `Verif.QTransform.through_node`, `Verif.QTransform.through_poly`, `Verif.QTransform.tiles_scale`, `Verif.QTransform.tiles_shift`, `Verif.QTransform.tiles_tone_partial`, `Verif.QTransform.tone_off_centre`, `Verif.QTransform.transforms_mono`, `Verif.QTransform.window_bisquare`, `Verif.QTransform.window_shape`, `Verif.QTransform.zero_frequency_fails`, `Verif.ResNet.batch_mean_mixes`, `Verif.ResNet.block_conv_1d`, `Verif.ResNet.block_conv_2d`, `Verif.ResNet.default_batchFree`, `Verif.ResNet.default_zeroing`, `Verif.ResNet.fresh_block`, `Verif.ResNet.fresh_block_identity`, `Verif.ResNet.fresh_network`, `Verif.ResNet.group_norm_2d`, `Verif.ResNet.head_1d`, `Verif.ResNet.head_2d`, `Verif.ResNet.no_flag_no_identity`, `Verif.ResNet.pool_1d`, `Verif.ResNet.pool_2d`, `Verif.ResNet.resnet_basic_dilation`, `Verif.ResNet.resnet_batch`, `Verif.ResNet.resnet_correct`, `Verif.ResNet.resnet_even_kernel`, `Verif.ResNet.resnet_one_layer_fails`, `Verif.ResNet.resnet_rejects`, `Verif.ResNet.resnet_stride_type_reject`, `Verif.ResNet.standard_batch`, `Verif.ResNet.standard_batch2`, `Verif.ResNet.stem_1d`, `Verif.ResNet.stem_2d`, `Verif.Resample.cubic_bounds`, `Verif.Resample.cubic_const`, `Verif.Resample.cubic_negative`, `Verif.Resample.cubic_not_affine`, `Verif.Resample.cubic_same`, `Verif.Resample.cubic_weights`, `Verif.Resample.interp2_ok`, `Verif.Resample.interp2_reject`, `Verif.Resample.linear_affine`, `Verif.Resample.linear_between`, `Verif.Resample.linear_bounds`, `Verif.Resample.linear_same`, `Verif.S4D.lnorm_correct`, `Verif.S4D.model_head_correct`, `Verif.S4D.model_step_correct`, `Verif.S4D.s4d_causal`, `Verif.S4D.s4d_conv_recurrence`, `Verif.S4D.s4d_errors`, `Verif.S4D.s4d_fresh_kernel`, `Verif.S4D.s4d_init`, `Verif.S4D.s4d_layer_correct`, `Verif.S4D.s4d_layout`, `Verif.S4D.s4d_stable`, `Verif.S4D.s4d_zero_order_hold`, `Verif.S4D.s4model_correct`, `Verif.Slicing.sample_batch_probability_1d`, `Verif.Slicing.sample_batch_probability_2d_coincident`, `Verif.Slicing.sample_batch_probability_2d_independent`, `Verif.Slicing.sample_batch_probability_3d`, `Verif.Slicing.sample_kernels_1d`, `Verif.Slicing.sample_kernels_2d_coincident`, `Verif.Slicing.sample_kernels_2d_independent`, `Verif.Slicing.sample_kernels_3d`, `Verif.Slicing.sample_kernels_exact_length_raises`, `Verif.Slicing.sample_kernels_never_last`, `Verif.Slicing.sample_kernels_offset_meaning`, `Verif.Slicing.sample_kernels_reaches_partial`, `Verif.Slicing.sample_kernels_rejects_offset`, `Verif.Slicing.sample_uniform_1d`, `Verif.Slicing.sample_uniform_2d_coincident`, `Verif.Slicing.sample_uniform_2d_independent`, `Verif.Slicing.sample_uniform_3d`, `Verif.Slicing.slice_kernels_1d`, `Verif.Slicing.slice_kernels_1d_past_end`, `Verif.Slicing.slice_kernels_2d_coincident`, `Verif.Slicing.slice_kernels_2d_independent`, `Verif.Slicing.slice_kernels_3d`, `Verif.Slicing.slice_kernels_out_of_range`, `Verif.Slicing.slice_kernels_rank_error`, `Verif.Slicing.unfold_windows_correct`, `Verif.Slicing.unfold_windows_error_iff`, `Verif.Snapshotter.snapshotter_groups`, `Verif.Snapshotter.snapshotter_stream`, `Verif.Snr.ifo_snr_correct`, `Verif.Snr.ifo_snr_lowpass_mask_error`, `Verif.Snr.ifo_snr_mask_error`, `Verif.Snr.ifo_snr_smul`, `Verif.Snr.network_snr_correct`, `Verif.Snr.rescaler_permutes`, `Verif.Snr.rescaler_reaches`, `Verif.Snr.rescaler_rejects`, `Verif.Snr.reweight_reaches`, `Verif.Snr.snrSq_smul`, `Verif.Snr.snr_augment_invariant`, `Verif.Snr.snr_cut_partition`, `Verif.Snr.snr_of_magnitudes`, `Verif.Snr.snr_shift_invariant`, `Verif.Spectral.coherence_le_one`, `Verif.Spectral.coherence_le_one_shared`, `Verif.Spectral.coherence_median_unbounded`, `Verif.Spectral.cross_density_correct`, `Verif.Spectral.cross_self`, `Verif.Spectral.cross_swap`, `Verif.Spectral.fast_density_correct`, `Verif.Spectral.fast_density_exact_above_bin1`, `Verif.Spectral.hann_bins`, `Verif.Spectral.median_correct`, `Verif.Spectral.shapes_accepted_iff`, `Verif.Spectral.shapes_documented_multichannel_rejected`, `Verif.Spectral.spectral_density_affine`, `Verif.Spectral.spectral_density_correct`, `Verif.Spectral.spectral_density_parseval`, `Verif.SpectralNoise.density_expectation`, `Verif.SpectralNoise.lowest_bins_biased`, `Verif.SpectralNoise.median_unbiased`, `Verif.SpectralNoise.spectral_density_unbiased`, `Verif.SpectralNoise.spectral_density_unbiased_median`, `Verif.Spectrogram.kwargs_broadcast`, `Verif.Spectrogram.kwargs_equal`, `Verif.Spectrogram.kwargs_multiple_of_eight`, `Verif.Spectrogram.kwargs_reject`, `Verif.Spectrogram.multires_correct`, `Verif.Spectrogram.multires_covers`, `Verif.Spectrogram.multires_empty`, `Verif.Spectrogram.multires_wrong_length`, `Verif.Spline.Axis.B_det`, `Verif.Spline.basis_correct`, `Verif.Spline.fit_solvable`, `Verif.Spline.history2d_partial`, `Verif.Spline.history_last_override`, `Verif.Spline.history_never_constructed`, `Verif.Spline.history_no_override_partial`, `Verif.Spline.init1d`, `Verif.Spline.init2d`, `Verif.Spline.knots_correct`, `Verif.Spline.knots_unique`, `Verif.Spline.override2d_persists`, `Verif.Spline.override_persists`, `Verif.Spline.spline1d_evaluates`, `Verif.Spline.spline1d_interpolates`, `Verif.Spline.spline1d_linear`, `Verif.Spline.spline1d_polynomial`, `Verif.Spline.spline1d_rejects`, `Verif.Spline.spline1d_total`, `Verif.Spline.spline2d_evaluates`, `Verif.Spline.spline2d_interpolates`, `Verif.Spline.spline2d_linear`, `Verif.Spline.spline2d_polynomial`, `Verif.Spline.spline2d_rejects`, `Verif.Spline.spline2d_total`, `Verif.TaylorF2.Bin.amplitude_eq`, `Verif.TaylorF2.Bin.htilde_distance`, `Verif.TaylorF2.Bin.htilde_eq`, `Verif.TaylorF2.Bin.htilde_norm`, `Verif.TaylorF2.Bin.htilde_ref`, `Verif.TaylorF2.Bin.htilde_swap`, `Verif.TaylorF2.Bin.phasing_deriv`, `Verif.TaylorF2.Bin.phasing_eq`, `Verif.TaylorF2.Bin.phasing_swap`, `Verif.TaylorF2.bin_masses`, `Verif.TaylorF2.ellipse`, `Verif.TaylorF2.forward_ok`, `Verif.TaylorF2.forward_reject`, `Verif.TaylorF2.half_turn`, `Verif.TaylorF2.mirror_source`, `Verif.TaylorF2.phase_solves_balance`, `Verif.TaylorF2.phase_solves_balance_nonspinning`, `Verif.TaylorF2.ratio_swap`, `Verif.TaylorF2.scale_free`, `Verif.TaylorF2.strain_is_stationary_phase`, `Verif.TaylorF2.turn_source`, `Verif.WaveformSampler.sampler_aligned`, `Verif.WaveformSampler.sampler_repeats`, `Verif.Whiten.density_cross_slow`, `Verif.Whiten.density_forward`, `Verif.Whiten.density_init_iff`, `Verif.Whiten.fixed_whiten_correct`, `Verif.Whiten.fixed_whiten_rejects`, `Verif.Whiten.fixed_whiten_rounding`, `Verif.Whiten.fixed_whiten_zero_overlap`, `Verif.Whiten.hann_response_real`, `Verif.Whiten.interpLinear_bounds`, `Verif.Whiten.normalize_pad_zero_empty`, `Verif.Whiten.short_hann_nonneg`, `Verif.Whiten.toPsd_welch`, `Verif.Whiten.truncate_band`, `Verif.Whiten.truncate_correct`, `Verif.Whiten.truncate_highpass_keeps_bin_below`, `Verif.Whiten.truncate_zero_duration`, `Verif.Whiten.whiten_agree_partial`, `Verif.Whiten.whiten_agrees_fixed_partial`, `Verif.Whiten.whiten_correct`, `Verif.Whiten.whiten_flat`, `Verif.Whiten.whiten_leaks`, `Verif.Whiten.whiten_linear`, `Verif.Whiten.whiten_local_partial`, `Verif.Whiten.whiten_matched`, `Verif.Whiten.whiten_noise`, `Verif.Whiten.whiten_short_local`, `Verif.Whiten.whiten_too_short`, `Verif.Whiten.whiten_white`, `Verif.Whiten.whiten_white_odd_bins`, `Verif.Whiten.whitened_kernel`
