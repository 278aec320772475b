{"id": "C01", "title": "unfold_windows returns exactly the strided windows", "statement": "For a 1-, 2- or 3-dimensional series x, window_size >= 1, stride >= 1 and window_size <= T, unfold_windows(x, window_size, stride) succeeds, its leading dimension is floor((T-window_size)/stride)+1, and element (w, ..., t) equals x[..., w*stride+t]; nothing else about x influences the result.", "quantifier": "all tensors of rank 1-3, all window sizes and strides, every output index", "why_tests_cant": "The implementation goes through unfold/reshape/transpose index arithmetic whose correctness depends on the divisibility relation of T, window_size and stride; tests sample a handful of triples.", "anchors": ["ml4gw/utils/slicing.py:unfold_windows"]}
{"id": "C02", "title": "unfold_windows remainder complements the windows", "statement": "With drop_last=False the second return value has a leading dimension 1 followed by the leading dimensions of x and holds exactly the trailing samples x[..., covered:] where covered=(num_windows-1)*stride+window_size; its length is (T-window_size) mod stride, and zero-length when the windows fit evenly; so the union of windows and remainder covers every sample when stride <= window_size.", "quantifier": "all ranks, sizes and strides", "why_tests_cant": "boundary arithmetic over all T mod stride classes", "anchors": ["ml4gw/utils/slicing.py:unfold_windows"]}
{"id": "C03", "title": "unfold_windows rejects exactly the impossible requests", "statement": "unfold_windows raises if and only if stride <= 0, window_size <= 0 or window_size > T (or a leading dimension is empty); it never returns a wrongly shaped tensor.", "quantifier": "all integer window sizes and strides, including negative and zero", "why_tests_cant": "negative floor-division cases are infinitely many", "anchors": ["ml4gw/utils/slicing.py:unfold_windows"]}
{"id": "C04", "title": "slice_kernels returns the requested contiguous windows", "statement": "When all start indices satisfy 0 <= idx and idx+kernel_size <= T, slice_kernels returns: for 1D x, out[b,t]=x[idx[b]+t]; for 2D x and 1D idx, out[b,c,t]=x[c,idx[b]+t]; for 2D x and 2D idx, out[b,c,t]=x[c,idx[b,c]+t]; for 3D x, out[b,c,t]=x[b,c,idx[b]+t].", "quantifier": "all tensors, index tensors, kernel sizes, output positions", "why_tests_cant": "flattened gather index arithmetic for all shapes", "anchors": ["ml4gw/utils/slicing.py:slice_kernels"]}
{"id": "C05", "title": "slice_kernels never silently wraps or reads outside the series", "statement": "If some start index is negative or idx+kernel_size > T, slice_kernels raises instead of returning data from elsewhere; rank mismatches raise ValueError.", "quantifier": "all index values including negative ones", "why_tests_cant": "unbounded index domain; the 1D branch uses torch.take whose negative indices wrap", "anchors": ["ml4gw/utils/slicing.py:slice_kernels"]}
{"id": "C06", "title": "sample_kernels returns only genuine windows at the reported indices", "statement": "Whatever the random draw, if sample_kernels returns (kernels, idx) then every idx lies in [0, T-kernel_size], and kernels are the contiguous windows of X beginning there (coincident across channels when coincident or X is 3D, per-channel otherwise).", "quantifier": "every random outcome, every rank, size, offset and flag", "why_tests_cant": "random outcomes are not enumerable by tests", "anchors": ["ml4gw/utils/slicing.py:sample_kernels"]}
{"id": "C07", "title": "sample_kernels honours max_center_offset", "statement": "With max_center_offset=m and center=T//2: if m>=0 each sampled window starts strictly before center and ends (exclusive) no earlier than center-m; if m<0 the center lies at least |m| samples inside both edges; with m=0 every kernel contains the center.", "quantifier": "every random outcome, every T, kernel_size and offset", "why_tests_cant": "off-by-one boundary behaviour over all outcomes", "anchors": ["ml4gw/utils/slicing.py:sample_kernels"]}
{"id": "C08", "title": "sample_kernels returns N kernels and rejects impossible requests", "statement": "A successful call returns exactly N kernels (len(X) for 3D); it raises ValueError when T < kernel_size, rank > 3, N missing for rank < 3, N != len(X) for rank 3, or the offset cannot be satisfied.", "quantifier": "all arguments including N=0", "why_tests_cant": "decision logic over unbounded integer arguments", "anchors": ["ml4gw/utils/slicing.py:sample_kernels"]}
{"id": "C09", "title": "sample_kernels can reach every valid window", "statement": "With max_center_offset=None, for every valid start s (0 <= s <= T-kernel_size) some random outcome yields the window starting at s, and T == kernel_size is accepted.", "quantifier": "all T, kernel_size, s", "why_tests_cant": "an existential over random outcomes cannot be tested", "anchors": ["ml4gw/utils/slicing.py:sample_kernels"]}
{"id": "C10", "title": "InMemoryDataset visits each kernel at most once per epoch in batches of batch_size", "statement": "For coincident sampling, one epoch yields exactly len(dataset) batches; the start positions are distinct multiples of stride, each window lies inside the series, all batches but possibly the last have batch_size elements, and when batches_per_epoch is None every one of the floor((T-kernel_size)/stride)+1 kernels appears exactly once; with shuffle=False they appear in time order.", "quantifier": "every series length, kernel size, stride, batch size, batches_per_epoch, every shuffle permutation", "why_tests_cant": "all permutations and sizes", "anchors": ["ml4gw/dataloading/in_memory_dataset.py:InMemoryDataset"]}
{"id": "C11", "title": "InMemoryDataset keeps y aligned with X", "statement": "When y is given, each yielded (X, y) pair consists of windows taken at the same start positions; a y whose length differs from X is rejected at construction.", "quantifier": "all datasets, permutations and batches", "why_tests_cant": "all permutations", "anchors": ["ml4gw/dataloading/in_memory_dataset.py:InMemoryDataset"]}
{"id": "C12", "title": "InMemoryDataset non-coincident sampling", "statement": "Without coincidence each channel's window start in each yielded batch element is an independent valid kernel index; with shuffle=False no index tuple is yielded twice in an epoch (for at most 2^24 kernels, where float32 indices are exact) and the tuples come in lexicographic order; with shuffle=True every outcome of the draw yields only valid tuples (repetitions are possible).", "quantifier": "all channel counts, sizes and outcomes", "why_tests_cant": "combinatorial domain", "anchors": ["ml4gw/dataloading/in_memory_dataset.py:InMemoryDataset"]}
{"id": "C13", "title": "InMemoryDataset constructor rejects inconsistent arguments", "statement": "Construction fails with ValueError when y has wrong length, y is combined with coincident=False, coincident=False lacks batches_per_epoch, or batch_size*batches_per_epoch exceeds the number of kernels; otherwise it succeeds.", "quantifier": "all argument combinations", "why_tests_cant": "decision logic over unbounded integers", "anchors": ["ml4gw/dataloading/in_memory_dataset.py:InMemoryDataset"]}
{"id": "C14", "title": "ChunkedTimeSeriesDataset yields windows of the current chunk only", "statement": "For any stream of chunks of one common shape (batch, channels, chunk_size) the dataset yields batches_per_chunk batches per chunk; element (b,c,:) of every batch is the contiguous window of some chunk row (coincident: the same row and start for all channels; otherwise channel-wise independent), never crossing a row, channel or chunk boundary.", "quantifier": "every stream, every random outcome", "why_tests_cant": "random outcomes and flattened index arithmetic for all shapes", "anchors": ["ml4gw/dataloading/chunked_dataset.py:ChunkedTimeSeriesDataset"]}
{"id": "C15", "title": "ChunkedTimeSeriesDataset handles chunks of varying shape", "statement": "A later chunk with a different shape from the first is either rejected or sampled using its own shape.", "quantifier": "every stream of chunks", "why_tests_cant": "history dependent: state computed on the first chunk", "anchors": ["ml4gw/dataloading/chunked_dataset.py:ChunkedTimeSeriesDataset"]}
{"id": "C16", "title": "Hdf5TimeSeriesDataset splits batches over workers exactly", "statement": "For every number of workers W and every batches_per_epoch the per-worker batch counts sum to batches_per_epoch and differ by at most one; without workers the whole count is produced.", "quantifier": "all worker counts and epoch lengths", "why_tests_cant": "unbounded integers", "anchors": ["ml4gw/dataloading/hdf5_dataset.py:Hdf5TimeSeriesDataset"]}
{"id": "C17", "title": "Hdf5TimeSeriesDataset fills every batch element from a genuine window", "statement": "Every (batch, channel) cell of a sampled batch is written exactly once, with a contiguous in-range window of that channel of one of the files; coincident=True uses one file and one start per batch element for all channels, coincident='files' one file with per-channel starts, False per-channel files and starts.", "quantifier": "every set of files, sizes and random outcomes", "why_tests_cant": "random outcomes", "anchors": ["ml4gw/dataloading/hdf5_dataset.py:Hdf5TimeSeriesDataset"]}
{"id": "C18", "title": "Snapshotter output depends only on the stream, not how it was cut", "statement": "Feeding any sequence of updates, the state always holds the last state_size samples of the zero-prefixed stream, and the snapshots emitted by a call are the consecutive windows of length snapshot_size at spacing stride of state++update; concatenated over calls these are all windows of the zero-prefixed stream in order.", "quantifier": "every sequence of updates of every valid length", "why_tests_cant": "unbounded histories", "anchors": ["ml4gw/nn/streaming/snapshotter.py:Snapshotter"]}
{"id": "C19", "title": "Snapshotter separates channels as configured", "statement": "With channels_per_snapshot the stream is split into per-group snapshot tensors with the configured channel counts, in order; a sum mismatch with num_channels and stride >= snapshot length are rejected.", "quantifier": "all channel partitions", "why_tests_cant": "all partitions", "anchors": ["ml4gw/nn/streaming/snapshotter.py:Snapshotter"]}
{"id": "C20", "title": "OnlineAverager equals the offline overlap average", "statement": "For any sequence of forward calls, the concatenated output equals at each time sample the average of all model predictions whose windows cover that sample (predictions shifted by offset), independent of how predictions were batched into calls.", "quantifier": "every history of calls with any batch sizes, update sizes, num_updates", "why_tests_cant": "unbounded histories", "anchors": ["ml4gw/nn/streaming/online_average.py:OnlineAverager"]}
{"id": "C21", "title": "SignalInverter/SignalReverser act only on selected waveforms", "statement": "Each (batch, channel) series in the output is either unchanged or exactly negated (time reversed); applying with the same draw twice gives the input back; prob=0 never and prob=1 always transforms; the argument tensor itself is modified.", "quantifier": "all tensors, all random draws", "why_tests_cant": "all random draws", "anchors": ["ml4gw/augmentations.py:SignalInverter", "ml4gw/augmentations.py:SignalReverser"]}
{"id": "C22", "title": "GroupNorm1D computes group normalisation", "statement": "GroupNorm1D's output equals the textbook group norm (per group mean and biased variance with eps, then per channel affine) and num_groups not dividing num_channels is rejected.", "quantifier": "all real inputs, shapes and parameters", "why_tests_cant": "algebraic identity over reals", "anchors": ["ml4gw/nn/norm.py:GroupNorm1D"]}
{"id": "C23", "title": "Norm layer getters construct compatible layers", "statement": "GroupNorm1DGetter/GroupNorm2DGetter called with num_channels return a layer with min(num_channels, groups) groups; it fails exactly if that does not divide num_channels.", "quantifier": "all channel and group counts", "why_tests_cant": "unbounded integers", "anchors": ["ml4gw/nn/norm.py:GroupNorm1DGetter", "ml4gw/nn/norm.py:GroupNorm2DGetter"]}
{"id": "C24", "title": "median-averaging bias is the alternating harmonic sum", "statement": "median(x) averaged over n segments is divided by sum_{i=1..n_odd} (-1)^(i+1)/i with n_odd = n if odd else n-1; the bias lies in (1/2, 1] so the division is always defined.", "quantifier": "all segment counts", "why_tests_cant": "limit behaviour for all n", "anchors": ["ml4gw/spectral.py:median"]}
{"id": "C25", "title": "spectral density shape validation", "statement": "fast_spectral_density/spectral_density accept exactly the documented combinations of x and y shapes and raise ValueError on the rest.", "quantifier": "all shapes", "why_tests_cant": "decision logic over all shapes", "anchors": ["ml4gw/spectral.py:_validate_shapes", "ml4gw/spectral.py:fast_spectral_density", "ml4gw/spectral.py:spectral_density"]}
{"id": "C26", "title": "spectral density is non-negative, quadratic, and shift invariant", "statement": "The Welch estimate returned by spectral_density (mean average) is >= 0 at every bin, scales by a^2 when the signal is scaled by a, and with per-segment detrending is unchanged by adding a constant; each batch/channel element depends only on its own series.", "quantifier": "all real signals, all segment parameters", "why_tests_cant": "universally quantified real identities", "anchors": ["ml4gw/spectral.py:spectral_density", "ml4gw/spectral.py:fast_spectral_density"]}
{"id": "C27", "title": "one-sided spectral density satisfies Parseval", "statement": "For a single segment without detrending, the sum over bins of the one-sided density times bin width equals the window-weighted mean square of the signal.", "quantifier": "all real signals, all nperseg even or odd", "why_tests_cant": "identity over reals for all lengths", "anchors": ["ml4gw/spectral.py:spectral_density"]}
{"id": "C28", "title": "truncated inverse spectrum honours highpass/lowpass", "statement": "The inverse spectrum built by truncate_inverse_power_spectrum has bins below highpass and at or above lowpass zeroed before time-domain truncation, and the time-domain filter before the final transform is zero outside pad samples of either end.", "quantifier": "all PSDs, durations and cutoffs", "why_tests_cant": "bin rounding boundaries for all values", "anchors": ["ml4gw/spectral.py:truncate_inverse_power_spectrum"]}
{"id": "C29", "title": "whiten output length, demeaning and linearity", "statement": "whiten(X, psd, fduration, sr) with pad=int(fduration*sr/2) and N>2*pad>0 returns N-2*pad samples, is linear in X, is invariant to adding a constant to a channel, and each channel depends only on its own data; N <= 2*pad raises ValueError.", "quantifier": "all real inputs", "why_tests_cant": "real identities over all inputs", "anchors": ["ml4gw/spectral.py:whiten", "ml4gw/spectral.py:normalize_by_psd"]}
{"id": "C30", "title": "Whiten and FixedWhiten agree", "statement": "FixedWhiten fitted on a PSD yields the same output as Whiten given this PSD whenever both use the same filter length and the PSD has matching size; both reject unsuitable lengths and channel counts.", "quantifier": "all inputs, filter lengths, sample rates", "why_tests_cant": "int() truncation corner cases", "anchors": ["ml4gw/transforms/whitening.py:Whiten", "ml4gw/transforms/whitening.py:FixedWhiten"]}
{"id": "C31", "title": "FittableTransform refuses use before fit", "statement": "A transform's forward raises until fit has completed or a state dict containing every buffer has been loaded; after either, forward works with exactly the fitted/loaded values.", "quantifier": "every history of fit, load and forward calls", "why_tests_cant": "histories", "anchors": ["ml4gw/transforms/transform.py:FittableTransform"]}
{"id": "C32", "title": "ChannelWiseScaler round trip and standardisation", "statement": "After fit(X) with std_reg=0, forward gives every channel of X zero mean and (unless constant) unit population variance; reverse(forward(x))=x and forward(reverse(x))=x whenever the fitted scale is nonzero, for any batch shape; 1D and 2D inputs matching the constructor are accepted, other ranks raise ValueError, mismatches AssertionError.", "quantifier": "all real data", "why_tests_cant": "real identity over all inputs", "anchors": ["ml4gw/transforms/scaler.py:ChannelWiseScaler"]}
{"id": "C33", "title": "ShiftedPearsonCorrelation equals shifted correlation and is bounded", "statement": "Output k equals the Pearson correlation between y and x shifted by k-max_shift with zero padding; every finite value lies in [-1,1]; incompatible shapes raise ValueError.", "quantifier": "all real inputs, shifts, ranks", "why_tests_cant": "real inequality (Cauchy-Schwarz) for all inputs", "anchors": ["ml4gw/transforms/pearson.py:ShiftedPearsonCorrelation"]}
{"id": "C34", "title": "SNR computations are homogeneous and additive", "statement": "compute_ifo_snr scales by |a| with the response, network SNR squared is the sum of squared ifo SNRs, high/low pass masks partition the frequency axis (bins >= hp, < lp), and a mask of wrong length raises ValueError.", "quantifier": "all real responses, PSDs, cutoffs", "why_tests_cant": "real identities", "anchors": ["ml4gw/gw.py:compute_ifo_snr", "ml4gw/gw.py:compute_network_snr"]}
{"id": "C35", "title": "reweight_snrs reaches the target", "statement": "After reweight_snrs / SnrRescaler with targets t>=0 (and nonzero current SNR) the network SNR of each event equals t, and the relative SNR between ifos is unchanged; targets None permutes the existing SNRs.", "quantifier": "all responses, targets, permutations", "why_tests_cant": "real identity, random permutations", "anchors": ["ml4gw/gw.py:reweight_snrs", "ml4gw/transforms/snr_rescaler.py:SnrRescaler"]}
{"id": "C36", "title": "antenna response geometry", "statement": "For every sky position and polarization angle the polarization basis is orthonormal, plus and cross tensors are symmetric and traceless, responses are pi-periodic in psi, change sign under psi+pi/2, F+^2+Fx^2 does not depend on psi; an unknown mode raises ValueError.", "quantifier": "all angles and detector tensors", "why_tests_cant": "real trigonometric identities", "anchors": ["ml4gw/gw.py:compute_antenna_responses", "ml4gw/gw.py:plus", "ml4gw/gw.py:cross"]}
{"id": "C37", "title": "shift_responses is a circular roll by the light travel time", "statement": "Each ifo's response is rolled circularly by the truncated integer number of samples of its geometric delay: out[i]=in[(i-d) mod n]; no sample is lost or duplicated.", "quantifier": "all responses, vertices, sky positions", "why_tests_cant": "modular arithmetic for all sizes", "anchors": ["ml4gw/gw.py:shift_responses"]}
{"id": "C38", "title": "get_ifo_geometry / InterferometerGeometry lookup", "statement": "Only H1, L1, V1, K1 are known, each with its own tensor; any other name raises ValueError, and geometries are stacked in the order requested.", "quantifier": "all strings, all lists of names", "why_tests_cant": "all strings", "anchors": ["ml4gw/gw.py:get_ifo_geometry", "ml4gw/utils/interferometer.py:InterferometerGeometry"]}
{"id": "C39", "title": "Decimator picks every stride-th sample of each segment", "statement": "For a valid contiguous schedule starting at 0, output with split=True gives per segment the samples x[..., start*sr + k*(sr/rate)], k < (end-start)*rate, and split=False their concatenation; length equals the declared output length.", "quantifier": "all schedules, rates, inputs", "why_tests_cant": "schedule combinatorics", "anchors": ["ml4gw/transforms/decimator.py:Decimator"]}
{"id": "C40", "title": "Decimator validates its schedule", "statement": "A schedule is rejected when it is not an Nx3 table, has end<=start, non-divisible rates, or overlapping segments; input of unexpected length is rejected.", "quantifier": "all schedules", "why_tests_cant": "decision logic", "anchors": ["ml4gw/transforms/decimator.py:Decimator"]}
{"id": "C41", "title": "TophatIntegrator is a causal moving average", "statement": "TophatIntegrator output at t is the mean over the last W=int(sr*length)+1 samples with zero history; linear, length preserving and bounded by max|x|.", "quantifier": "all series, window lengths", "why_tests_cant": "all lengths", "anchors": ["ml4gw/transforms/integrator.py:TophatIntegrator"]}
{"id": "C42", "title": "LeakyIntegrator implements the leaky recursion", "statement": "The integrator output y_t follows y_t = max(lower_bound, y_{t-1} + decayed increment) starting from the lower bound; never below lower_bound.", "quantifier": "all series and parameters", "why_tests_cant": "all lengths, induction", "anchors": ["ml4gw/transforms/integrator.py:LeakyIntegrator"]}
{"id": "C43", "title": "MultiResolutionSpectrogram combines resolutions without reading padding", "statement": "Every output pixel is the maximum over all spectrograms of that spectrogram's nearest bin, indices never read padding; keyword lists of equal length or length 1 are accepted, others raise ValueError. (Finding: length-1 lists combined with lists of length 8, 16, ... are also rejected.)", "quantifier": "all configurations and shapes", "why_tests_cant": "index arithmetic for all shapes", "anchors": ["ml4gw/transforms/spectrogram.py:MultiResolutionSpectrogram"]}
{"id": "C44", "title": "Heterodyne preserves shape and energy", "statement": "Heterodyning multiplies the spectrum by unit-modulus phases, zeroes DC, returns real time series of the same length as input and/or frequency series as requested; other return types raise ValueError.", "quantifier": "all series and chirp masses", "why_tests_cant": "all lengths odd and even", "anchors": ["ml4gw/transforms/heterodyne.py:Heterodyne"]}
{"id": "C45", "title": "WaveformSampler returns waveforms with their own parameters", "statement": "Sampled waveforms and parameters stay aligned row by row, each a row of the library; N=-1 returns the whole library in order; N larger than available raises ValueError; mismatched parameter lengths are rejected at construction. (Sampling is with replacement: the same row can appear twice.)", "quantifier": "all N, permutations", "why_tests_cant": "random permutations", "anchors": ["ml4gw/transforms/waveforms.py:WaveformSampler"]}
{"id": "C46", "title": "SpectralDensity constructor validation", "statement": "SpectralDensity accepts exactly when overlap < fftlength, the window has nperseg samples, average is mean/median; cross-density with fast=False raises NotImplementedError.", "quantifier": "all argument combinations", "why_tests_cant": "decision logic", "anchors": ["ml4gw/transforms/spectral.py:SpectralDensity"]}
{"id": "C47", "title": "Spline basis is a partition of unity and fit interpolates", "statement": "B-spline basis functions built by the spline transforms are non-negative, locally supported and sum to 1 on the knot interval; for strictly increasing coordinates the collocation matrix the code builds is invertible (so construction and evaluation never fail with zero or positive smoothing), with zero smoothing the fit reproduces the data at the nodes and every polynomial up to the degree, and it is linear in the data.", "quantifier": "all knot vectors, degrees, data", "why_tests_cant": "real identities by induction on degree", "anchors": ["ml4gw/transforms/spline_interpolation.py:SplineInterpolate1D"]}
{"id": "C48", "title": "SplineInterpolate forward() without override uses the constructed output coordinates", "statement": "Calling forward(Z) evaluates at the x_out given at construction regardless of earlier forward(Z, x_out=...) calls.", "quantifier": "every history of calls", "why_tests_cant": "histories", "anchors": ["ml4gw/transforms/spline_interpolation.py:SplineInterpolate1D"]}
{"id": "C49", "title": "Q-transform tiles stay inside the spectrum", "statement": "For every admissible (q, frequency, duration, sample rate) the tile's window indices lie in [0, n_rfft], the padding completes the window to ntiles samples, and tiles are returned in ascending frequency order.", "quantifier": "all parameters", "why_tests_cant": "real/integer arithmetic for all parameters", "anchors": ["ml4gw/transforms/qtransform.py:QTile", "ml4gw/transforms/qtransform.py:SingleQTransform"]}
{"id": "C50", "title": "QScan returns the Q plane with the maximum energy", "statement": "QScan selects the transform whose maximum tile energy is the greatest among all planes; qs lie within qrange in ascending order.", "quantifier": "all inputs", "why_tests_cant": "all inputs", "anchors": ["ml4gw/transforms/qtransform.py:QScan"]}
{"id": "C51", "title": "samples lie in the support", "statement": "Cosine, Sine, LogUniform, PowerLaw and DeltaFunction samples lie in their declared [min,max] support for every uniform draw, and sampling is the exact inverse of the CDF.", "quantifier": "all parameters and uniform draws", "why_tests_cant": "all random outcomes", "anchors": ["ml4gw/distributions.py:Cosine", "ml4gw/distributions.py:Sine", "ml4gw/distributions.py:LogUniform", "ml4gw/distributions.py:PowerLaw", "ml4gw/distributions.py:DeltaFunction"]}
{"id": "C52", "title": "log_prob is a normalised log density", "statement": "exp(log_prob) integrates to 1 over the support and is zero outside, for Cosine, PowerLaw, LogUniform, UniformComovingVolume.", "quantifier": "all parameters", "why_tests_cant": "integral over continuum", "anchors": ["ml4gw/distributions.py:Cosine.log_prob", "ml4gw/distributions.py:PowerLaw.log_prob", "ml4gw/distributions.py:UniformComovingVolume.log_prob"]}
{"id": "C53", "title": "UniformComovingVolume interpolation and bounds", "statement": "Sampling uses a monotone piecewise linear inverse CDF: samples lie in [min,max]; interpolation reproduces table values at nodes and stays between neighbours.", "quantifier": "all monotone tables and draws", "why_tests_cant": "all real tables", "anchors": ["ml4gw/distributions.py:UniformComovingVolume", "ml4gw/distributions.py:RateEvolution"]}
{"id": "C54", "title": "mass conversions round trip", "statement": "chirp_mass_and_mass_ratio_to_components followed by recomputing chirp mass and mass ratio returns the inputs; component masses are positive, m2 = q*m1.", "quantifier": "all positive masses", "why_tests_cant": "real power identities", "anchors": ["ml4gw/waveforms/conversion.py:chirp_mass_and_mass_ratio_to_components"]}
{"id": "C55", "title": "spin conversion preserves magnitudes and angles", "statement": "bilby_spins_to_lalsim returns spin vectors with |s_i|=a_i, s_iz equal a_i*cos(tilt_i) w.r.t. L, inclination in [0,pi]; f_ref<=0 raises ValueError.", "quantifier": "all angles", "why_tests_cant": "trigonometric identities", "anchors": ["ml4gw/waveforms/conversion.py:bilby_spins_to_lalsim"]}
{"id": "C56", "title": "time-domain generator conditioning", "statement": "For every batch of positive masses, any spins, an even integer sample rate at least twice f_min, and any approximant evaluated frequency by frequency: generation succeeds and is never NaN; the transform length is a power of two covering the longest chirp and less than twice it; the frequency grid is k*df from 0 to Nyquist; each waveform's spectrum is zero below its start frequency and at Nyquist, raised-cosine tapered up to its lower frequency, and the approximant above; the time series is the inverse transform shifted by right_pad, windowed at both ends with lengths that depend only on the waveform itself, right-aligned and zero-padded on the left; the output has int(duration*sample_rate) samples whenever duration*sample_rate is an integer or at least the chirp length (otherwise one more); the highpass filter keeps 99% of the power at f_min. An empty batch raises RuntimeError.", "quantifier": "all batches of parameters, generator settings, approximants", "why_tests_cant": "all masses, spins and settings; the window would be 0/0 for a waveform whose taper rounds to a single bin", "anchors": ["ml4gw/waveforms/generator.py:TimeDomainCBCWaveformGenerator"]}
{"id": "C57", "title": "final spin and time bounds are bounds", "statement": "final_black_hole_spin_bound is at most 0.998 and at least |s1z|,|s2z| limited by 0.998; merge/ringdown/chirp time bounds are positive and proportional to total mass.", "quantifier": "all masses and spins", "why_tests_cant": "real inequality", "anchors": ["ml4gw/waveforms/cbc/utils.py"]}
{"id": "C58", "title": "TaylorF2 is the 3.5PN stationary-phase waveform", "statement": "For all positive chirp masses, mass ratios (m2/m1), distances, frequencies and reference frequencies, and all spins: the strain has the Newtonian stationary-phase amplitude of the given chirp mass and distance, and the literature's 3.5PN phase with spin-orbit and spin-spin terms, measured from the reference frequency and shifted by 2 phic + pi/4; hp = h (1+cos^2 i)/2, hc = -i h cos i; the returned derivative is the derivative of the phase; inverse-distance scaling; exchanging the bodies changes nothing; tensors of different batch sizes raise ValueError.", "quantifier": "all physical parameters and frequencies", "why_tests_cant": "real analysis", "anchors": ["ml4gw/waveforms/cbc/taylorf2.py:TaylorF2"]}
{"id": "C59", "title": "IMRPhenomD: pieces, joins, tables and strain", "statement": "For every physical binary (positive chirp mass and mass ratio, spins between -1 and 1) IMRPhenomD returns a waveform without error: the final spin lies in the quasi-normal-mode table, the lookup is linear interpolation in it, the joining frequencies are ordered, the amplitude and the phase are continuously differentiable at every positive frequency (each derivative helper is the derivative of its piece, up to the alignment constants for the phase), the intermediate amplitude solves the five collocation conditions, the amplitude decays beyond the peak, the strain has the Newtonian amplitude times that factor, falls off as 1/distance and has phase 2 phic at the reference frequency. Batches of unequal sizes raise ValueError and any out-of-table final spin RuntimeError.", "quantifier": "all chirp masses, mass ratios, spins in [-1, 1], distances, phases, frequencies and batch sizes", "why_tests_cant": "smoothness and domain bounds over a continuum of four source parameters and all frequencies", "anchors": ["ml4gw/waveforms/cbc/phenom_d.py:IMRPhenomD", "ml4gw/waveforms/cbc/phenom_d_data.py"]}
{"id": "C60", "title": "ad-hoc waveforms", "statement": "SineGaussian: for every positive quality and frequency, every phase and eccentricity in [-1,1], the root-sum-square strain over all time is hrss, split between plus and cross as the squares of semi-axes a, b with a^2+b^2=1 and b/a=sqrt(1-e^2); the samples are a cosine/sine in a Gaussian envelope at times centred on zero; linear in hrss. Ringdown: for quality >= 2 the implied spin is in [0,1), the mass positive, and quality and frequency are those of the fundamental mode of that black hole (Echeverria fits); damped sinusoids that shrink by exp(-pi/Q) per cycle, falling off as 1/distance. Both return int(duration*sample_rate) samples per waveform.", "quantifier": "all parameters", "why_tests_cant": "real identities", "anchors": ["ml4gw/waveforms/adhoc/sine_gaussian.py:SineGaussian", "ml4gw/waveforms/adhoc/ringdown.py:Ringdown"]}
{"id": "C61", "title": "ConvBlock match_size returns the requested length", "statement": "match_size(X, n) returns a tensor whose last dimension is n, by symmetric zero padding or symmetric cropping.", "quantifier": "all lengths", "why_tests_cant": "all size differences", "anchors": ["ml4gw/nn/autoencoder/utils.py:match_size"]}
{"id": "C62", "title": "Autoencoder decode(encode(x)) shape", "statement": "The convolutional autoencoder returns a tensor of the input's shape whatever the stack of layers, and skip connections pair each decoder block with the encoder block of the same depth.", "quantifier": "all architectures and lengths", "why_tests_cant": "all architectures", "anchors": ["ml4gw/nn/autoencoder/base.py:Autoencoder", "ml4gw/nn/autoencoder/convolutional.py"]}
{"id": "C63", "title": "Skip connections preserve channels", "statement": "AddSkipConnect adds elementwise; ConcatSkipConnect output contains every channel of both inputs exactly once with channel count doubled, groups not dividing channels raise ValueError.", "quantifier": "all shapes and groups", "why_tests_cant": "all shapes", "anchors": ["ml4gw/nn/autoencoder/skip_connection.py"]}
{"id": "C64", "title": "ResNet shape correctness", "statement": "For every accepted architecture and every sufficiently long input the residual branches and the identity branch have equal shape and the network returns (batch, classes); even kernel sizes raise ValueError.", "quantifier": "all architectures and lengths", "why_tests_cant": "induction over layers", "anchors": ["ml4gw/nn/resnet/resnet_1d.py", "ml4gw/nn/resnet/resnet_2d.py"]}
{"id": "C65", "title": "S4D convolution equals the causal state-space recurrence", "statement": "The FFT based S4D layer output equals the causal linear convolution of input with the SSM kernel (no circular wrap-around) i.e. the recurrence x_{t+1}=A x_t + B u_t, plus skip term; modes decay.", "quantifier": "all lengths, parameters, inputs", "why_tests_cant": "all lengths; DFT identity", "anchors": ["ml4gw/nn/ssm/s4d.py"]}
{"id": "C66", "title": "fast spectral density is exact above the two lowest bins", "statement": "With the default periodic Hann window, fast_spectral_density(x) equals spectral_density(x) in every bin k >= 2, for every series, segment length, stride and averaging method.", "quantifier": "all real signals of rank 1-3, all nperseg, nstride, both averages", "why_tests_cant": "identity over all real signals and sizes", "anchors": ["ml4gw/spectral.py:fast_spectral_density", "ml4gw/spectral.py:spectral_density"]}
{"id": "C67", "title": "Whitening by a flat PSD rescales the demeaned input", "statement": "With a flat PSD of value P>0, no cut-offs, an even number of frequency bins and a filter duration giving pad>=1, whiten returns sqrt(2/(P*sample_rate)) times the demeaned input (cropped); in particular white noise with PSD 2*sigma^2/sr is divided by sigma.", "quantifier": "all inputs of shape (B,C,N), all P>0, sample rates, durations and crop settings", "why_tests_cant": "ranges over all real inputs and sizes; a test samples a few", "anchors": ["ml4gw/spectral.py:whiten", "ml4gw/spectral.py:truncate_inverse_power_spectrum", "ml4gw/spectral.py:normalize_by_psd"]}
{"id": "C68", "title": "IMRPhenomPv2: twisting up is quadrupole radiation seen along the precessing orbital axis", "statement": "At every frequency the two polarizations of IMRPhenomPv2 carry exactly the intensity of the aligned-spin quadrupole wave seen at the angle between the line of sight and the orbital angular momentum (opening angle beta, azimuth alpha about the total one); their circular combinations are fourth powers of the spin-1/2 overlap; the absolute scale is the Newtonian stationary-phase amplitude of the chirp mass times the PhenomD amplitude factor, falling as 1/distance; every physical binary in a batch gets a row and every frequency a column.", "quantifier": "all parameters, spins, reference frequencies and frequencies; all batches of physical binaries (positive masses, mass_ratio <= 1, |spin| <= 1)", "why_tests_cant": "trigonometric identity over all angles and a totality statement over all batches", "anchors": ["ml4gw/waveforms/cbc/phenom_p.py:IMRPhenomPv2.forward", "ml4gw/waveforms/cbc/phenom_p.py:IMRPhenomPv2.PhenomPCoreTwistUp", "ml4gw/waveforms/cbc/phenom_p.py:IMRPhenomPv2.SpinWeightedY", "ml4gw/waveforms/cbc/phenom_p.py:IMRPhenomPv2.WignerdCoefficients", "ml4gw/waveforms/cbc/phenom_p.py:IMRPhenomPv2.get_Amp0"]}
{"id": "C69", "title": "IMRPhenomPv2: convert_spins describes the source geometry", "statement": "The angles returned by convert_spins are those of one rigid frame whose third axis is the total angular momentum (orbital plus m1^2 s1 + m2^2 s2): in it the orbital axis has azimuth alpha0, the line of sight polar angle thetaJN in the x-z plane and the polarization basis is turned by zeta; thetaJN is the angle between the line of sight and the total angular momentum; the inclination is recovered; chi_p is the usual effective precession spin, lies in [0,1] for unit spins, vanishes exactly without in-plane spin.", "quantifier": "all masses, spins, inclinations, phases and reference frequencies with non-vanishing total angular momentum", "why_tests_cant": "ranges over all rotations of R^3", "anchors": ["ml4gw/waveforms/cbc/phenom_p.py:IMRPhenomPv2.convert_spins", "ml4gw/waveforms/cbc/phenom_p.py:IMRPhenomPv2.ROTATEY", "ml4gw/waveforms/cbc/phenom_p.py:IMRPhenomPv2.ROTATEZ"]}
{"id": "C70", "title": "IMRPhenomPv2: the spins hold at the reference frequency", "statement": "At f_ref the Euler angles equal the initial geometry: alpha is alpha0, epsilon is zero, and when the lighter body has no in-plane spin the opening angle is that between orbital and total angular momentum, so the intensity is that of a quadrupole seen at the given inclination.", "quantifier": "all binaries and reference frequencies", "why_tests_cant": "identity over all real parameters", "anchors": ["ml4gw/waveforms/cbc/phenom_p.py:IMRPhenomPv2.forward", "ml4gw/waveforms/cbc/phenom_p.py:IMRPhenomPv2.PhenomPCoreTwistUp", "ml4gw/waveforms/cbc/phenom_p.py:IMRPhenomPv2.convert_spins"]}
{"id": "C71", "title": "IMRPhenomPv2: aligned spins reduce to IMRPhenomD", "statement": "Without in-plane spin the waveform is the quadrupole pattern at the given inclination of the IMRPhenomD strain of the same masses and aligned spins, up to a constant phase and a time shift.", "quantifier": "all binaries with aligned spins, all inclinations strictly between 0 and pi, all frequencies", "why_tests_cant": "equality of two programs over all real parameters", "anchors": ["ml4gw/waveforms/cbc/phenom_p.py:IMRPhenomPv2.forward", "ml4gw/waveforms/cbc/phenom_p.py:IMRPhenomPv2.PhenomPOneFrequency"]}
{"id": "C72", "title": "IMRPhenomPv2: the ringdown lookup never fails on physical binaries", "statement": "For unit-bounded spins and mass_ratio <= 1 the final spin including the in-plane part lies strictly inside (-1, 1), so the table lookup succeeds and interpolates linearly between tabulated neighbours; final spins above the table raise IndexError for the whole batch.", "quantifier": "all physical binaries, all final spins", "why_tests_cant": "polynomial inequality over a four-dimensional continuum", "anchors": ["ml4gw/waveforms/cbc/phenom_p.py:IMRPhenomPv2.FinalSpin_inplane", "ml4gw/waveforms/cbc/phenom_p.py:IMRPhenomPv2.phP_get_fRD_fdamp", "ml4gw/waveforms/cbc/phenom_p.py:IMRPhenomPv2.interpolate"]}
{"id": "C73", "title": "IMRPhenomPv2: time of coalescence", "statement": "The applied time shift makes the phase stationary at a frequency within 0.07% of the ringdown frequency; tc enters as the factor exp(-i f M tc) with M the total mass in seconds (a delay of M tc / 2 pi seconds, not tc seconds).", "quantifier": "all physical binaries, all tc, all frequencies", "why_tests_cant": "mean-value statement over a continuum of binaries", "anchors": ["ml4gw/waveforms/cbc/phenom_p.py:IMRPhenomPv2.forward", "ml4gw/waveforms/cbc/phenom_p.py:IMRPhenomPv2.PhenomPOneFrequency"]}
{"id": "C74", "title": "IMRPhenomPv2: orbital angular momentum is the 2PN one", "statement": "L2PNR(v, eta) is the 2PN orbital angular momentum of a circular orbit, i.e. the one that satisfies the first law dE = omega dL with the 2PN energy.", "quantifier": "all velocities v > 0 and symmetric mass ratios in (0, 1/4]", "why_tests_cant": "identity of functions", "anchors": ["ml4gw/waveforms/cbc/phenom_p.py:IMRPhenomPv2.L2PNR"]}
{"id": "C75", "title": "IMRPhenomPv2: the Euler angles obey the minimal-rotation condition", "statement": "With v = (pi M f)^(1/3), v^6 (d epsilon/df - cos(beta) d alpha/df) vanishes through order v^3 up to the rounding of a literal (< 1e-17) whenever the lighter body has no spin along the orbit or the masses are equal; in general the v^3 term is k1 s^2 (x - y) with explicit x, y.", "quantifier": "all ordered binaries, as v -> 0", "why_tests_cant": "asymptotic statement about derivatives", "anchors": ["ml4gw/waveforms/cbc/phenom_p.py:IMRPhenomPv2.ComputeNNLOanglecoeffs", "ml4gw/waveforms/cbc/phenom_p.py:IMRPhenomPv2.WignerdCoefficients", "ml4gw/waveforms/cbc/phenom_p.py:IMRPhenomPv2.PhenomPCoreTwistUp"]}
{"id": "C76", "title": "Exported constants agree with each other and with their stated units", "statement": "The constants exported by the package agree with their definitions and units: PI and TWO_PI with pi; a megaparsec in metres and in seconds with the IAU parsec and the speed of light; the solar mass in metres and in seconds with the nominal solar mass parameter; the product G MSUN / C^3 with the solar mass in seconds; and clightGpc with the speed of light in gigaparsecs per second.", "quantifier": "every exported constant, to the stated number of digits", "why_tests_cant": "A test compares a literal with another literal; it cannot bound the distance to pi or to a quantity defined through pi.", "anchors": ["ml4gw/constants.py: PI, TWO_PI, MRSUN, MSUN, MTSUN_SI, gt, m_per_Mpc, MPC_SEC, clightGpc"]}
{"id": "C77", "title": "IIRFilter is a zero-phase linear filter", "statement": "IIRFilter keeps the shape of its input and filters every series along the last axis by itself. The causal pass is the only solution of the difference equation of its coefficients with zero initial state. The whole filter is linear, symmetric (<Fx, z> = <x, Fz>) and positive semidefinite on series of every length. If all poles are inside the unit circle it is bounded uniformly in the length, and a sinusoid comes out as the same sinusoid, unshifted, times the squared modulus of the frequency response b/a, up to terms that decay geometrically from the two ends. The ends are not padded, so it does not commute with time reversal.", "quantifier": "all coefficient lists with a[0] != 0 (resp. stable), all series, lengths, frequencies and phases", "why_tests_cant": "statement over all series, lengths and frequencies, with a uniform decay rate", "anchors": ["ml4gw/transforms/iirfilter.py:IIRFilter.__init__", "ml4gw/transforms/iirfilter.py:IIRFilter.forward"]}
{"id": "C78", "title": "The time-domain generator's highpass filter", "statement": "For every positive minimum frequency below the Nyquist frequency the generator can build its highpass filter and the filter is stable. Applied to a sinusoid of f hertz it multiplies it, without phase shift and up to geometrically decaying end effects, by a gain that is 0 at 0 Hz, increases with f, never exceeds 1, and is the square root of 0.99 at the minimum frequency. The generator's output is this filter applied to each conditioned polarization and contains no NaN. A minimum frequency between the Nyquist frequency and the sample rate is rejected.", "quantifier": "all sample rates and minimum frequencies, all frequencies below Nyquist, phases, lengths and batches", "why_tests_cant": "gain over a continuum of frequencies for a continuum of designs", "anchors": ["ml4gw/waveforms/generator.py:TimeDomainCBCWaveformGenerator.build_highpass_filter", "ml4gw/waveforms/generator.py:TimeDomainCBCWaveformGenerator.forward", "ml4gw/transforms/iirfilter.py:IIRFilter"]}
{"id": "C79", "title": "IMRPhenomD and TaylorF2: modulus and phase fit together as a stationary-phase chirp", "statement": "At low frequency the squared modulus of the IMRPhenomD strain is what the stationary-phase approximation makes of the 3PN dominant mode amplitude (with spin terms through 2PN) and of the second derivative of the strain's own phase: the relative difference is of seventh order in the velocity except for one 3PN term quadratic in the spins, and of seventh order without spins (first body the heavier). For TaylorF2 the same holds with relative difference of second order.", "quantifier": "all chirp masses, mass ratios up to one, spins in [-1,1], distances, phases, reference frequencies; frequencies tending to zero", "why_tests_cant": "an asymptotic statement over a continuum of binaries; finite comparisons cannot fix the order of agreement or every literal of the series", "anchors": ["ml4gw/waveforms/cbc/phenom_d.py:IMRPhenomD.phenom_d_inspiral_amp", "ml4gw/waveforms/cbc/phenom_d.py:IMRPhenomD.phenom_d_htilde", "ml4gw/waveforms/cbc/taylorf2.py:TaylorF2.taylorf2_phase", "ml4gw/waveforms/cbc/taylorf2.py:TaylorF2.taylorf2_amplitude"]}
{"id": "C80", "title": "get_max_energy reduces over exactly the dimensions it names", "statement": "After the tiles have been computed, get_max_energy returns the largest energy over the searched rows and all times: one number for 'both', one value per batch element and channel for 'neither', per channel (largest over the batch) for 'channel', per batch element (largest over the channels) for 'batch'; an unknown dimension raises ValueError even before tiles exist, a valid one without tiles RuntimeError.", "quantifier": "all tiles, batch and channel counts, row lengths and search ranges", "why_tests_cant": "a maximum over arbitrary data with ragged rows, for every shape", "anchors": ["ml4gw/transforms/qtransform.py:SingleQTransform.get_max_energy"]}
{"id": "C81", "title": "The interpolated Q plane is a faithful resampling of the tiles", "statement": "With the spline method, output bin (f, t) is the cubic spline through the tile energies at the bin's own time and frequency: it reproduces the tile at a node and every cubic function of time and frequency inside the grid, and is constant beyond it. With the bilinear method every output lies between the smallest and the largest tile energy of its channel; with bicubic it exceeds them by at most 57/128 of their range.", "quantifier": "all tiles, numbers of rows, row lengths, output sizes and bins", "why_tests_cant": "a statement over all real data and all grid sizes", "anchors": ["ml4gw/transforms/qtransform.py:SingleQTransform.interpolate", "ml4gw/transforms/qtransform.py:SingleQTransform._set_up_spline_interp"]}
{"id": "C82", "title": "Which Q transforms can be built and called", "statement": "The constructors accept exactly the settings for which every plane has a Q below the limit, a positive frequency range and, for the spline method, at least one time bin, five frequencies and five tiles per row; with the default frequency range the spline method is accepted exactly when the range is worth more than four grid steps. A transform or scan built with the default range never fails on one- to three-dimensional data of its duration and sample rate and returns the rendering of the normalised energies.", "quantifier": "all durations, sample rates, Q values, mismatches, output sizes, normalisations and data", "why_tests_cant": "real-valued settings; the boundary between accepted and rejected settings is a curve that samples do not locate", "anchors": ["ml4gw/transforms/qtransform.py:SingleQTransform.__init__", "ml4gw/transforms/qtransform.py:QScan.__init__", "ml4gw/transforms/qtransform.py:QScan.forward"]}
{"id": "C83", "title": "A column of the Q plane is one instant in every row", "statement": "Output column t of the interpolated plane corresponds to the same time in all rows, whatever their numbers of tiles: rows that sample the same slowly varying function of time agree in each column away from the edges.", "quantifier": "all durations, row lengths, output sizes and columns", "why_tests_cant": "ranges over all pairs of row lengths and functions", "anchors": ["ml4gw/transforms/qtransform.py:SingleQTransform.interpolate"]}
{"id": "C84", "title": "Batch elements are treated independently", "statement": "Selecting elements of a batch (a subset, a permutation, repetitions, a single element) before a transform gives exactly the selection of the transform's result: for the IIR filter, the integrators, spectral and cross-spectral densities, whitening with shared or per-element PSDs, FixedWhiten, per-detector and network SNRs and reweighting with given targets, projection onto detectors, group normalisation, shifted correlation, the S4 model in evaluation mode, decimation, 1-D spline interpolation, heterodyning and the single-Q transform with spline interpolation. The exceptions are explicit: rescaling without targets exchanges SNRs within the batch, and the image interpolation methods of the Q transform drop the batch dimension for a batch of one.", "quantifier": "all batch sizes, selections, inputs and settings of each transform", "why_tests_cant": "ranges over all batches, all selections from them and all settings", "anchors": ["ml4gw/transforms/iirfilter.py:IIRFilter.forward", "ml4gw/transforms/integrator.py", "ml4gw/transforms/whitening.py:FixedWhiten", "ml4gw/spectral.py:spectral_density", "ml4gw/spectral.py:fast_spectral_density", "ml4gw/spectral.py:whiten", "ml4gw/gw.py:compute_ifo_snr", "ml4gw/gw.py:compute_network_snr", "ml4gw/gw.py:reweight_snrs", "ml4gw/gw.py:compute_observed_strain", "ml4gw/nn/norm.py:GroupNorm1D", "ml4gw/transforms/pearson.py:ShiftedPearsonCorrelation", "ml4gw/nn/ssm/s4d.py", "ml4gw/transforms/decimator.py:Decimator", "ml4gw/transforms/spline_interpolation.py:SplineInterpolate1D", "ml4gw/transforms/heterodyne.py", "ml4gw/transforms/qtransform.py:SingleQTransform"]}
{"id": "C85", "title": "A binary's time-domain waveform does not depend on the rest of the batch", "statement": "The two series the time-domain generator returns for a binary are a function of that binary's parameters alone: adding, removing or reordering other binaries of the batch does not change them.", "quantifier": "all generators, binaries, batches and frequency-domain approximants", "why_tests_cant": "ranges over all batches a binary can occur in", "anchors": ["ml4gw/waveforms/generator.py:TimeDomainCBCWaveformGenerator.forward", "ml4gw/waveforms/generator.py:TimeDomainCBCWaveformGenerator.generate_conditioned_fd_waveform"]}
{"id": "C86", "title": "A frequency-domain waveform is a function of the binary and the frequency", "statement": "The polarizations TaylorF2, IMRPhenomD and IMRPhenomPv2 return for a binary at a frequency do not depend on where the two stand in the batch and in the frequency grid, nor on the other binaries and frequencies. A batch is accepted exactly when each of its binaries is accepted alone.", "quantifier": "all batches, frequency grids (in any order, with repetitions) and reference frequencies", "why_tests_cant": "ranges over all pairs of batches and grids that share a binary and a frequency", "anchors": ["ml4gw/waveforms/cbc/taylorf2.py:TaylorF2.forward", "ml4gw/waveforms/cbc/phenom_d.py:IMRPhenomD.forward", "ml4gw/waveforms/cbc/phenom_p.py:IMRPhenomPv2.forward"]}
{"id": "C87", "title": "The whitening filter is as short as requested", "statement": "After cropping, each sample whiten returns is a fixed weighted sum of the demeaned input samples at most half of fduration away from it: input further away has no influence, and nothing wraps around the ends of the series.", "quantifier": "all inputs, PSDs, filter lengths, cut-offs and output positions", "why_tests_cant": "ranges over all inputs and PSDs; the influence of every distant sample has to be excluded", "anchors": ["ml4gw/spectral.py:truncate_inverse_power_spectrum", "ml4gw/spectral.py:normalize_by_psd", "ml4gw/spectral.py:whiten"]}
{"id": "C88", "title": "IMRPhenomPv2: turning the spins about the orbital axis", "statement": "Rotating both spins by an angle d about the orbital angular momentum at the reference frequency and lowering the reference phase phic by d multiplies both polarizations, at every frequency, by exp(-2 i d), whenever the total angular momentum has a component in the orbital plane.", "quantifier": "all masses, spins, distances, inclinations, phases, frequencies and rotation angles", "why_tests_cant": "ranges over a continuous rotation group and every binary; a sampled test cannot exclude a branch of atan2 where the turn is lost", "anchors": ["ml4gw/waveforms/cbc/phenom_p.py:IMRPhenomPv2.convert_spins", "ml4gw/waveforms/cbc/phenom_p.py:IMRPhenomPv2.forward"]}
{"id": "C89", "title": "Cross spectral densities are inner products", "statement": "fast_spectral_density(x, y) is the complex conjugate of fast_spectral_density(y, x) in every bin; of a series with itself it is the series' power spectral density; and with mean averaging the squared modulus of each bin is at most the product of the two power spectral densities there, so that a coherence is at most one.", "quantifier": "all pairs of series of every accepted shape, windows, segment lengths, strides and averages (the bound: average='mean')", "why_tests_cant": "an inequality between three estimates for every pair of series and every bin; sampling never exhibits the equality cases", "anchors": ["ml4gw/spectral.py:fast_spectral_density"]}
{"id": "C90", "title": "Hdf5TimeSeriesDataset can return every combination of windows", "statement": "For any choice of a file (among those selected for the batch) and a start for every batch element and channel - the same for all channels as far as coincident demands - some outcome of the random draws returns exactly this batch: batch elements and channels do not constrain each other.", "quantifier": "all data sets, batch shapes, values of coincident and target batches", "why_tests_cant": "a statement about the existence of an outcome for every one of exponentially many batches; sampling cannot show that two cells are not coupled", "anchors": ["ml4gw/dataloading/hdf5_dataset.py:Hdf5TimeSeriesDataset.sample_fnames", "ml4gw/dataloading/hdf5_dataset.py:Hdf5TimeSeriesDataset.sample_batch"]}
{"id": "C91", "title": "Spectral density estimates of white noise are unbiased", "statement": "Applied to white noise (uncorrelated samples of a common mean and variance s2) a SpectralDensity module with the default window and mean averaging, fast or exact, with any overlap, has expectation exactly s2/sample_rate times the one-sided factor in every bin but the two lowest, for every batch element and channel. With the median average, non-overlapping segments and Gaussian white noise the expectation is exactly 2*s2/sample_rate, for every number of segments: the bias correction of `median` is the exact expected median of independent exponential variables. In bins 0 and 1 the exact estimate is low by the factors 1/3 and 5/6 because each segment is detrended.", "quantifier": "every sample rate, fft length, overlap, number of segments, batch shape, bin, window (mean averaging, function level), and every noise distribution with the stated moments (Gaussian for the median)", "why_tests_cant": "an expectation over all noise realisations; a simulation only bounds it statistically and cannot tell an exact bias correction from an approximate one, nor cover every number of segments", "anchors": ["ml4gw/spectral.py: median, spectral_density, fast_spectral_density", "ml4gw/transforms/spectral.py: SpectralDensity"]}
{"id": "C92", "title": "The SNR does not depend on arrival time, sign or time direction", "statement": "The single-detector SNR returned for a batch depends on the waveforms only through the magnitudes of their Fourier coefficients: two batches of the same shape whose coefficients agree in magnitude get the same SNR for the same spectra and cutoffs. In particular the SNR of a batch equals the SNR of the batch after the arrival-time shift applied by the detector projection (whole-sample circular shift, any sky position and any detector), and after SignalInverter or SignalReverser have acted on it, whatever the augmentations' draws.", "quantifier": "every batch shape, spectrum shape, cutoffs, detector location, sky position, probability and random draw", "why_tests_cant": "the invariance is an identity between two real functions over all waveforms and all spectra; tests compare a few random batches within a tolerance", "anchors": ["ml4gw/gw.py: compute_ifo_snr, shift_responses", "ml4gw/augmentations.py: SignalInverter, SignalReverser"]}
{"id": "C93", "title": "Sampled windows are independent uniform draws", "statement": "sample_kernels draws one start per kernel (per kernel and channel when not coincident), each decided by its own draw and by nothing else, through a one-to-one numbering of the admissible starts; so with a fair randint every batch of admissible starts is returned with the same probability (number of admissible starts)^-(number of draws), i.e. the starts are independent and uniform, for one-, two- and three-dimensional data and every max_center_offset. The batches of ChunkedTimeSeriesDataset are decided in the same way: row and start of each kernel of batch j of chunk k are that kernel's own draws reduced to the number of rows of chunk k and to T - kernel_size, and every choice of rows and starts for a whole epoch is returned by some outcome.", "quantifier": "every data tensor, kernel size, number of kernels, offset, coincidence mode, chunk list, and every random outcome / every fair source", "why_tests_cant": "a statement about the whole space of random outcomes and about probabilities of whole batches; statistical tests can only bound deviations for a few sizes", "anchors": ["ml4gw/utils/slicing.py: sample_kernels, slice_kernels", "ml4gw/dataloading/chunked_dataset.py: ChunkedTimeSeriesDataset"]}
{"id": "C94", "title": "Whitened noise is calibrated", "statement": "Noise that is stationary over the whitened stretch comes out of `whiten` with mean zero, whatever its mean, and stationary again, its covariance being the transform of its one-sided density times the squared gain of the truncated filter; if that gain is the inverse amplitude density of the noise the output samples have variance exactly 1 - 1/N and covariances -1/N. White noise of variance s2 whitened with its own density 2*s2/sample_rate has variance exactly 1 - 1/N when the number of frequency bins is even and 1 - 3/N + 3*pad/(4*N^2) when N is a multiple of four.", "quantifier": "every probability space, noise with the stated second moments, batch shape, PSD shape, cut-offs, filter length, crop setting and pair of output samples", "why_tests_cant": "expectations over all noise realisations, exact in N and pad; a simulation cannot separate these from approximately unit variance", "anchors": ["ml4gw/spectral.py: whiten, normalize_by_psd, truncate_inverse_power_spectrum", "ml4gw/transforms/whitening.py: Whiten"]}
{"id": "C95", "title": "Q tiles follow the data in time and amplitude", "statement": "For every SingleQTransform and all data of its duration and sample rate: rolling the data in time by d samples rolls the tiles of every row of n tiles, for which d samples are a whole number m of tiles and whose window lies inside the spectrum, by m tiles, with every normalisation; multiplying the data by a non-zero factor a multiplies the unnormalised energies by a squared and leaves the energies normalised by mean or median unchanged.", "quantifier": "all transforms, data, batch shapes, shifts, factors, rows, tiles and normalisations", "why_tests_cant": "an identity over all data, shifts and window positions; tests compare a few transforms with GWpy within a tolerance", "anchors": ["ml4gw/transforms/qtransform.py:QTile.forward", "ml4gw/transforms/qtransform.py:SingleQTransform.compute_qtiles"]}
{"id": "C96", "title": "A row of Q tiles responds most to a tone at its own frequency", "statement": "The unnormalised energies of a row of Q tiles for a tone of amplitude A are constant in time and equal A squared times the squared bisquare response at the distance of the tone from the frequency of the row, hence largest for a tone at that frequency.", "quantifier": "all transforms, rows inside the spectrum, tones on the grid of the spectrum, amplitudes and phases", "why_tests_cant": "a closed form over all rows and tones", "anchors": ["ml4gw/transforms/qtransform.py:QTile.get_data_indices", "ml4gw/transforms/qtransform.py:QTile.get_window"]}
{"id": "C97", "title": "Networks built with zero_init_residual start as their shortcuts", "statement": "A residual block, basic or bottleneck, in one or two dimensions, as constructed by a network with zero_init_residual=True returns the ReLU of its shortcut whatever its convolution weights, so a block without downsampling returns inputs without negative entries unchanged; consequently two such networks with the same stem, head and downsampling convolutions return the same outputs whatever their residual convolutions, kernel sizes, groups, widths and numbers of blocks per layer.", "quantifier": "all block types, architectures, weights, inputs and norm layers that return zeros for zero weight and bias (in particular the default ones)", "why_tests_cant": "ranges over all weights, architectures and depths; a test fixes one network", "anchors": ["ml4gw/nn/resnet/resnet_1d.py:ResNet1D.__init__", "ml4gw/nn/resnet/resnet_1d.py:BasicBlock", "ml4gw/nn/resnet/resnet_1d.py:Bottleneck", "ml4gw/nn/resnet/resnet_2d.py:ResNet2D.__init__"]}
{"id": "C98", "title": "Residual networks treat batch elements independently", "statement": "For every accepted ResNet architecture with norm layers that treat batch elements independently (in particular the default group norms, with any number of groups), and any parameters, selecting elements of a batch (subset, permutation, repetition) before the network gives the same selection of its outputs.", "quantifier": "all architectures, parameters, batches and selections", "why_tests_cant": "ranges over all architectures, parameters, batches and selections", "anchors": ["ml4gw/nn/resnet/resnet_1d.py:ResNet1D.forward", "ml4gw/nn/resnet/resnet_2d.py:ResNet2D.forward", "ml4gw/nn/norm.py"]}
{"id": "C99", "title": "IMRPhenomD is the published phenomenological model", "statement": "For every physical binary with mass_ratio <= 1, IMRPhenomD computes the waveform of Khan et al. (2016): inspiral amplitude post-Newtonian plus the three rho terms up to Mf = 0.014, a quartic taking the collocation value v2 midway to the published peak frequency, the damped Lorentzian with gamma1..gamma3 beyond it; inspiral phase TaylorF2 without the 3PN spin-spin terms plus the four sigma terms up to Mf = 0.018, then slopes with beta1..beta3 and, above half the ringdown frequency, alpha1..alpha5. Each of the nineteen parameters is a polynomial in the symmetric mass ratio and the reduced spin whose eleven coefficients round to the six digits of Table V. The ringdown frequencies are those of a hole with the final spin and radiated energy of Husa et al. (2016); the lookup tables reproduce the published l = m = 2 Kerr frequencies to four digits and are smooth in between.", "quantifier": "all chirp masses, mass ratios in (0, 1], spins in [-1, 1], frequencies, table entries and fit coefficients", "why_tests_cant": "a wrong digit in one of 230 coefficients or 3000 table entries changes the waveform slightly and smoothly everywhere; a reference test at a few parameter values with a tolerance need not notice", "anchors": ["ml4gw/waveforms/cbc/phenom_d.py:IMRPhenomD", "ml4gw/waveforms/cbc/phenom_d_data.py"]}
{"id": "C100", "title": "Residual network layers are centred convolutions, max pooling, group statistics and averaging", "statement": "Every convolution of a ResNet block with odd kernel_size correlates the zero-continued input with its kernel placed symmetrically around output sample t: it reads t * stride + (u - (kernel_size - 1) / 2) * dilation, only in the channels of its group, and returns 1 + (L - 1) // stride samples, so no layer delays or shifts the signal. The stem does this with kernel 7 and stride 2 over all input channels; the pooling returns the greatest of the existing samples within one of sample 2 t; the default two-dimensional norm standardises each group by its own mean and biased variance (+ 1e-5) before weight and bias; the head applies the linear layer to the channel means. In one and in two dimensions.", "quantifier": "all channel counts, groups, odd kernel sizes, strides, dilations, weights, batch sizes, lengths and input values", "why_tests_cant": "a padding that is off by one for some dilation, or a group that reads its neighbour's channels, still trains and still has the right shapes; only the formula for all sizes excludes it", "anchors": ["ml4gw/nn/resnet/resnet_1d.py:convN", "ml4gw/nn/resnet/resnet_1d.py:ResNet1D", "ml4gw/nn/resnet/resnet_2d.py:convN", "ml4gw/nn/resnet/resnet_2d.py:ResNet2D", "ml4gw/nn/norm.py:GroupNorm2DGetter"]}
{"id": "C101", "title": "UniformComovingVolume follows flat Lambda-CDM and is uniform in comoving volume", "statement": "For every positive Hubble constant, matter density in [0, 1] and grid, the comoving distance tabulated at redshift z by UniformComovingVolume or RateEvolution differs from c times the integral of dz/H(z) by at most c dz / 2 (1/H(0) - 1/H(z)), and the sampled quantity there is z, that distance or (1+z) times it, according to distance_type. Whatever the distance type, the probability that a sample lands between two grid points is proportional to the comoving volume between them (times the rate, bounded by its extremes there), up to the factor (1 + dz)^4 and the volume of a grid-cell-squared tube.", "quantifier": "all Hubble constants, matter densities, redshift limits, grid sizes, ranges, distance types, positive rate functions and pairs of grid points", "why_tests_cant": "a histogram test sees one cosmology at one resolution with sampling noise; a missing Jacobian for one distance type or a unit error in c / h0 shifts the density smoothly", "anchors": ["ml4gw/distributions.py:UniformComovingVolume", "ml4gw/distributions.py:RateEvolution"]}
{"id": "C102", "title": "The precession angles of IMRPhenomPv2 advance at the post-Newtonian rate", "statement": "For every chirp mass, mass ratio at most one, pair of spins and reference frequency, the first Euler angle the waveform is twisted by, seen as a function of the orbital velocity v = (pi M f)^(1/3), has the slope that post-Newtonian theory gives: the orbit-averaged precession rate of the orbital plane about the total angular momentum (spin precession through next-to-next-to-leading order, total angular momentum with its spin-orbit part) divided by the growth rate of v through second post-Newtonian order with its spin-orbit term, for a binary with the aligned spin and the effective in-plane spin of the call on the heavier body. Relative to the leading slope 1/v^4 they agree through v^4, up to three rounding errors of at most 1e-15. The third angle advances at that rate times the cosine of the opening angle.", "quantifier": "all chirp masses, mass ratios in (0, 1], spin vectors and reference frequencies; asymptotically in the orbital velocity", "why_tests_cant": "a reference waveform test compares against another copy of the same coefficients; a wrong digit in one of the forty terms changes the phase of precession smoothly and only for some masses and spins", "anchors": ["ml4gw/waveforms/cbc/phenom_p.py:IMRPhenomPv2.ComputeNNLOanglecoeffs", "ml4gw/waveforms/cbc/phenom_p.py:IMRPhenomPv2.forward"]}
{"id": "C103", "title": "The phases of TaylorF2, IMRPhenomD and IMRPhenomPv2 solve the binary's energy balance", "statement": "The phase psi of the TaylorF2 strain of any binary satisfies psi''(f) = 2 pi dt/df, where the time the binary spends per unit of frequency is computed from its energy budget alone: minus the derivative of the post-Newtonian orbital energy with respect to the frequency, divided by the post-Newtonian power it radiates. Both sides agree through third post-Newtonian order (v^6 relative to leading, including the logarithm and the terms quadratic in the spins) for any aligned spins, and at 3.5PN in everything that is not quadratic or cubic in the spins; without spins nothing is left through v^7. The phase of the IMRPhenomD strain satisfies the same, except for one 3PN term quadratic in the spins. The circular polarizations of IMRPhenomPv2 are a precessing quadrupole pattern times a positive amplitude and a phase that does the same for the spin components along the orbital axis.", "quantifier": "all positive masses, aligned spins, distances, coalescence phases and reference frequencies (chirp masses, mass ratios and spins in [-1, 1] for IMRPhenomD); asymptotically in the orbital velocity", "why_tests_cant": "reference waveforms carry the same phase coefficients as the code, so a comparison cannot tell whether those are right; the energy and the flux are different published series and only all the coefficients together make the quotient of one's derivative and the other come out", "anchors": ["ml4gw/waveforms/cbc/taylorf2.py:TaylorF2.taylorf2_phase", "ml4gw/waveforms/cbc/taylorf2.py:TaylorF2.taylorf2_htilde", "ml4gw/waveforms/cbc/phenom_d.py:IMRPhenomD.phenom_d_inspiral_phase", "ml4gw/waveforms/cbc/phenom_p.py:IMRPhenomPv2.forward"]}
{"id": "C104", "title": "chirp_time_bound bounds the sweep time that the energy balance gives", "statement": "For all masses and aligned spins there is a frequency f0 below which chirp_time_bound is a genuine upper bound on physics at full post-Newtonian order: for all f < f1 < f0 the time the binary takes to sweep from f to f1, obtained by integrating (minus the derivative of the orbital energy) over (the radiated power) with every term of both through 3.5PN, is positive and smaller than the difference of the bounds at f and f1, and so smaller than the bound at f.", "quantifier": "all positive masses in kilogrammes and all real aligned spins; all pairs of frequencies below a threshold that depends on the masses and spins", "why_tests_cant": "that a formula is a bound is a statement about every binary and every pair of frequencies; the bound's spin term is a worst case that a test at a few spins cannot certify", "anchors": ["ml4gw/waveforms/cbc/utils.py:chirp_time_bound", "ml4gw/waveforms/cbc/coefficients.py:taylor_t2_timing_0pn_coeff"]}
{"id": "C105", "title": "A waveform does not depend on which body is called the first", "statement": "Describing the same binary the other way round (inverse mass ratio, spins exchanged, everything else kept) leaves the strain unchanged, for TaylorF2 and for IMRPhenomD.", "quantifier": "all positive chirp masses, mass ratios, distances, frequencies and reference frequencies, all aligned spins (in [-1, 1] for IMRPhenomD)", "why_tests_cant": "reference comparisons are run in the convention of the reference library, with the heavier body first; an error on the other half of the parameter space shows only where someone looks", "anchors": ["ml4gw/waveforms/cbc/taylorf2.py:TaylorF2.taylorf2_htilde", "ml4gw/waveforms/cbc/phenom_d.py:IMRPhenomD.phenom_d_htilde", "ml4gw/waveforms/cbc/phenom_d.py:IMRPhenomD.chiPN"]}
{"id": "C106", "title": "Gravity has no scale, and neither do the waveforms", "statement": "Multiplying the chirp masses and the distances by a positive number and dividing the frequencies and the reference frequency by it multiplies both polarizations by that number, for TaylorF2, IMRPhenomD and IMRPhenomPv2: this is what lets a redshift be absorbed in the masses and the luminosity distance.", "quantifier": "all positive factors, all frequency arrays, batches and parameters (spins, inclinations, mass ratios, phases), including those that raise", "why_tests_cant": "a comparison with a reference library at a few masses cannot tell a missing unit factor that is close to one there, nor a fit evaluated in physical instead of geometric frequency", "anchors": ["ml4gw/waveforms/cbc/taylorf2.py:TaylorF2.forward", "ml4gw/waveforms/cbc/phenom_d.py:IMRPhenomD.forward", "ml4gw/waveforms/cbc/phenom_p.py:IMRPhenomPv2.forward"]}
{"id": "C107", "title": "Turning or mirroring a non-precessing source acts on the polarizations by the known rule", "statement": "For TaylorF2 and IMRPhenomD: adding an angle to the phases of coalescence multiplies both polarizations by exp(2i angle), so half an orbit changes nothing; replacing the inclination by pi minus it keeps plus and negates cross; and at every frequency cross (1 + cos^2) = -2i cos plus, so cross never exceeds plus in magnitude.", "quantifier": "all frequency arrays, batches and parameters, including those that raise", "why_tests_cant": "tests draw phases and inclinations at random and compare with a reference; a factor of two in the phase or an exchanged pair of polarizations agrees wherever the reference has the same convention", "anchors": ["ml4gw/waveforms/cbc/taylorf2.py:TaylorF2.forward", "ml4gw/waveforms/cbc/phenom_d.py:IMRPhenomD.forward"]}
