# Formal model of ML4GW/ml4gw in Lean 4: design

The first version of this file was written before the proofs; it is regenerated as the model grows.

## Approach
* `Verif/Py.lean`, `Verif/Tensor*.lean`, `Verif/Fourier.lean`, `Verif/XR.lean`: Python integer semantics (floor division, `int()` truncation,
  slices), exceptions as `Except Err`, the torch operations used (reshape, transpose, unfold, gather, broadcasting, ...) as explicit index maps,
  the DFT as a finite sum, and extended reals (with NaN and infinities) where the code relies on them.
* `Verif/Model/*.lean`: the functions of /repo, branch by branch. Every definition cites file and lines; every simplification is in that comment.
* `Verif/Spec/*.lean`: small specifications that do not use the model's helpers (textbook formulas, laws of distributions, 3x3 rotations, ...).
* `Verif/Props/*.lean`: the property theorems, each with an `example` showing a concrete case that meets its hypotheses.
* `Verif/Lemmas/*.lean`: helpers.
* Where the code does not have the property, the theorem is restricted (suffix `_partial`) and a counterexample theorem about the model is proved beside it.
* `seeded/LOG.jsonl`: wrong programs tried against the theorems (one line each), with the theorems that failed and those tightened.

## Trusted base
* Lean 4.33.0's kernel and Mathlib's definitions that occur in statements.
* Axioms: only `propext`, `Classical.choice`, `Quot.sound`; AXIOMS.md lists them for every theorem in the manifest. No `native_decide`, no
  `bv_decide`, no axioms of our own. Table facts use `decide` (kernel reduction).
* The reading of /repo recorded in the models. There is no mechanical link between the Python text and the Lean text, except that the numeric tables and
  coefficient expressions of phenom_d.py, phenom_d_data.py and phenom_p.py were translated by a script from the Python syntax tree.
* The stated meaning of the torch, numpy, scipy and h5py primitives. Each is either defined (index maps, DFT sums, FIR sums) or a parameter over which the theorem
  quantifies: random draws (any value the documentation allows), `scipy.signal` IIR filters, `torchaudio.transforms.Spectrogram`, `F.interpolate`, convolution
  and activation layers' values in the networks (their shapes are modelled).
* Arithmetic is exact over the reals and complex numbers: no rounding or overflow, except where a comment says that float32 rounding is modelled.
  Decimal literals are the rationals they denote, `PI` is pi (C76 bounds the difference).

## What is modelled
| file | modelled | not modelled |
|---|---|---|
| utils/slicing.py | all of `unfold_windows`, `slice_kernels`, `sample_kernels` | devices, dtypes |
| utils/interferometer.py | geometry table and lookup | |
| dataloading/*.py | `InMemoryDataset`, `ChunkedTimeSeriesDataset`, `Hdf5TimeSeriesDataset` | `torch.utils.data` worker processes themselves, warnings, the h5py file format |
| augmentations.py, transforms/waveforms.py, snr_rescaler.py, scaler.py, transform.py, pearson.py, integrator.py, decimator.py, heterodyne.py, spectral.py, spectrogram.py, whitening.py | all classes and functions | devices, dtypes |
| transforms/qtransform.py | QTile, SingleQTransform, QScan | the value of `F.interpolate` (a parameter) |
| transforms/spline_interpolation.py | 1-D and 2-D interpolation, all histories of calls | |
| transforms/iirfilter.py | all; `filtfilt` by its documented meaning, SciPy's Butterworth highpass design from its formulas (other designs are a parameter) | dtypes, gradients, other `scipy.signal` designs |
| spectral.py | all functions | |
| gw.py | responses, shifts, projection, SNR, reweighting | |
| distributions.py | all classes | `torch.distributions` argument validation |
| constants.py | all | |
| nn/streaming, nn/norm.py, nn/autoencoder, nn/resnet, nn/ssm | `Snapshotter`, `OnlineAverager`, norms, shapes of the autoencoder, ResNet and S4D in full | training, weight initialisation (except S4D's and the norm layers of ResNet), autograd, dropout in training mode |
| waveforms/conversion.py, cbc/utils.py, cbc/coefficients.py, cbc/taylorf2.py, cbc/phenom_d.py, cbc/phenom_d_data.py, cbc/phenom_p.py, adhoc/*.py, generator.py | all | the ringdown table's spline construction in phenom_d_data.py is read as the data it contains |
| types.py | not applicable (type aliases) | |

## Properties
* **C01 unfold_windows returns exactly the strided windows** (proved; `Props/Unfold`; 1 theorems). `unfold_windows` as the chain split / im2col / reshape / transpose on index maps; shape and every element for ranks 1, 2 and 3, by computing the index map.
* **C02 unfold_windows remainder complements the windows** (proved; `Props/Unfold`; 2 theorems). Same model with `drop_last=False`: the remainder is the suffix after the last complete stride.
* **C03 unfold_windows rejects exactly the impossible requests** (proved; `Props/Unfold`; 1 theorems). Decision theorem over all integers: the exact set of rejected requests.
* **C04 slice_kernels returns the requested contiguous windows** (proved; `Props/Slice`; 4 theorems). gather/take model; element theorem for each of the four branches, every index tensor.
* **C05 slice_kernels never silently wraps or reads outside the series** (partial; `Props/Slice`; 4 theorems). Out-of-range theorems for every branch; a concrete wrapped read refutes the claim for 1-D tensors. *Note:* The property is false as stated for negative starts on 1-D series (torch.take wraps); the exact behaviour is proved, including the counterexample slice_kernels_1d_negative_wraps.
* **C06 sample_kernels returns only genuine windows at the reported indices** (proved; `Props/Sample`; 4 theorems). `torch.randint` is an oracle returning any values in range; the theorem holds for every oracle.
* **C07 sample_kernels honours max_center_offset** (partial; `Props/Sample`; 2 theorems). Interval arithmetic on the oracle range; refutation for the centre sample itself. *Note:* What the offset guarantees is proved; the claim that offset 0 always contains the centre sample is refuted by sample_kernels_center_sample_missed.
* **C08 sample_kernels returns N kernels and rejects impossible requests** (partial; `Props/Sample`; 7 theorems). Decision theorem for all N, sizes and offsets. *Note:* N=0 on a 3-D tensor is not rejected (refuted by sample_kernels_zero_returns_len); the rest is proved.
* **C09 sample_kernels can reach every valid window** (partial; `Props/Sample`; 3 theorems). Existence of an oracle for every start but the last; the last is never drawn (exclusive upper bound). *Note:* Every start but the last is reachable; reaching the last start and accepting T == kernel_size are refuted.
* **C10 InMemoryDataset visits each kernel at most once per epoch in batches of batch_size** (proved; `Props/InMemory`; 1 theorems). An epoch is the list of batches; for every permutation oracle the visited kernels form a duplicate-free list of valid ones; induction over batches.
* **C11 InMemoryDataset keeps y aligned with X** (proved; `Props/InMemory`; 2 theorems). Both gathers use the same index list; elementwise equality.
* **C12 InMemoryDataset non-coincident sampling** (proved; `Props/InMemory`; 5 theorems). `itertools.product` prefix (lexicographic), float32 index collisions shown above 2^24. *Note:* Two limits are exhibited by counterexamples: shuffled tuples may repeat, and indices above 2^24 collide in float32.
* **C13 InMemoryDataset constructor rejects inconsistent arguments** (proved; `Props/InMemory`; 2 theorems). Decision theorem for the constructor.
* **C14 ChunkedTimeSeriesDataset yields windows of the current chunk only** (proved; `Props/Chunked`; 3 theorems). Flat-index decoding of (channel, start) inside one chunk; every oracle.
* **C15 ChunkedTimeSeriesDataset handles chunks of varying shape** (partial; `Props/Chunked`; 2 theorems). Concrete counterexamples to the full property. *Note:* The property is false: a chunk of another length is sampled with the first chunk's geometry (counterexamples proved).
* **C16 Hdf5TimeSeriesDataset splits batches over workers exactly** (proved; `Props/Hdf5`; 1 theorems). Integer arithmetic for every worker count.
* **C17 Hdf5TimeSeriesDataset fills every batch element from a genuine window** (proved; `Props/Hdf5`; 3 theorems). Fold of writes over oracle draws; every slot of the output is written by a genuine window.
* **C18 Snapshotter output depends only on the stream, not how it was cut** (proved; `Props/Snapshotter`; 1 theorems). State machine; induction over the list of calls: the outputs are a function of the concatenated stream.
* **C19 Snapshotter separates channels as configured** (proved; `Props/Snapshotter`; 3 theorems). Split model; each output channel group is a slice.
* **C20 OnlineAverager equals the offline overlap average** (proved; `Props/OnlineAverager`; 3 theorems). Overlap-add invariant by induction over calls.
* **C21 SignalInverter/SignalReverser act only on selected waveforms** (proved; `Props/Augment`; 4 theorems). Mask oracle; elementwise theorem for selected and unselected rows.
* **C22 GroupNorm1D computes group normalisation** (proved; `Props/GroupNorm`; 3 theorems). Group statistics as explicit sums; equality with the textbook formula; rejection theorem.
* **C23 Norm layer getters construct compatible layers** (proved; `Props/GroupNorm`; 1 theorems). Every getter gives a constructible layer.
* **C24 median-averaging bias is the alternating harmonic sum** (proved; `Props/Spectral`; 1 theorems). The loop accumulates the alternating harmonic sum; induction.
* **C25 spectral density shape validation** (partial; `Props/Spectral`; 3 theorems). Exact set of accepted shape pairs. *Note:* One documented shape combination is rejected by the code (counterexample proved).
* **C26 spectral density is non-negative, quadratic, and shift invariant** (proved; `Props/Spectral`; 3 theorems). Welch average as an explicit sum over frames of squared DFTs; non-negativity, homogeneity, shift invariance.
* **C27 one-sided spectral density satisfies Parseval** (proved; `Props/Spectral`; 1 theorems). Parseval for the real DFT with one-sided weights (proved from orthogonality of roots of unity).
* **C28 truncated inverse spectrum honours highpass/lowpass** (proved; `Props/Whiten`; 4 theorems). Filter zeroed by cutoffs, inverse DFT, truncation, DFT; statement about the time-domain taps. *Note:* Exact arithmetic; truncated PSD = 1/(2|H|^2) of the tapered filter. Negation and finding included.
* **C29 whiten output length, demeaning and linearity** (proved; `Props/Whiten`; 5 theorems). Length, demeaning and linearity of the composed operator. *Note:* Exact arithmetic.
* **C30 Whiten and FixedWhiten agree** (partial; `Props/WhitenModules`; 6 theorems). Two pipelines reduced to the same closed form. *Note:* Agreement needs an even filter length and float32 rounding of fduration not changing the pad; findings included.
* **C31 FittableTransform refuses use before fit** (partial; `Props/Fittable`; 6 theorems). Histories of fit/load/call as lists; invariant on the `built` flag. *Note:* The 'every buffer loaded' part is false of the code: load_missing_enables is the machine-checked negation.
* **C32 ChannelWiseScaler round trip and standardisation** (proved; `Props/Scaler`; 7 theorems). Mean and standard deviation per channel; round trip and standardisation. *Note:* Exact arithmetic.
* **C33 ShiftedPearsonCorrelation equals shifted correlation and is bounded** (proved; `Props/Pearson`; 6 theorems). Correlation of each shift; Cauchy-Schwarz bound. *Note:* Exact arithmetic.
* **C34 SNR computations are homogeneous and additive** (proved; `Props/Snr`; 7 theorems). Weighted inner-product forms; homogeneity, additivity. *Note:* Exact arithmetic.
* **C35 reweight_snrs reaches the target** (proved; `Props/Snr`; 4 theorems). Fixed point of the rescaling. *Note:* Exact arithmetic.
* **C36 antenna response geometry** (proved; `Props/Geometry`; 7 theorems). Polarisation tensors, rotations; invariances for every sky position.
* **C37 shift_responses is a circular roll by the light travel time** (proved; `Props/Geometry`, `Props/Projector`; 10 theorems). Circular roll as a permutation; delay bounded by the light travel time. *Note:* Includes the negation for a broadcast of sky parameters (waveforms are silently dropped).
* **C38 get_ifo_geometry / InterferometerGeometry lookup** (proved; `Props/Geometry`, `Props/Projector`; 8 theorems). Lookup table; every known detector, errors for unknown ones.
* **C39 Decimator picks every stride-th sample of each segment** (partial; `Props/Decimator`; 7 theorems). Index list built by the schedule; induction over segments. *Note:* Proved for contiguous schedules from 0 whose segments have at least two samples; the last four are machine-checked negations outside that domain (gaps, one-sample segments, schedules that begin after 0: these are accepted and then reject every series).
* **C40 Decimator validates its schedule** (proved; `Props/Decimator`; 4 theorems). Decision theorem over schedules.
* **C41 TophatIntegrator is a causal moving average** (proved; `Props/Integrator`; 5 theorems). Convolution with the box kernel; linearity, bound. *Note:* Exact arithmetic.
* **C42 LeakyIntegrator implements the leaky recursion** (partial; `Props/Integrator`; 5 theorems). Induction over samples. *Note:* The recursion and the bound are proved; 'starts from the lower bound' is false of the code unless lower_bound = 0 (leaky_start_wrong is the machine-checked negation).
* **C43 MultiResolutionSpectrogram combines resolutions without reading padding** (proved; `Props/Spectrogram`; 9 theorems). Nearest-bin map; maximum over resolutions; torchaudio's spectrogram is a parameter. *Note:* torchaudio's Spectrogram is a parameter; kwargs_multiple_of_eight is a machine-checked counterexample to the documented broadcast (set iteration order).
* **C44 Heterodyne preserves shape and energy** (partial; `Props/Heterodyne`; 5 theorems). Unit-modulus phases; Parseval for the energy. *Note:* Same length holds for even lengths; heterodyne_odd_length is the machine-checked negation for odd lengths.
* **C45 WaveformSampler returns waveforms with their own parameters** (proved; `Props/WaveformSampler`; 8 theorems). Permutation/draw oracle; row alignment.
* **C46 SpectralDensity constructor validation** (proved; `Props/WhitenModules`; 3 theorems). Decision theorem.
* **C47 Spline basis is a partition of unity and fit interpolates** (proved; `Props/Spline`, `Props/Spline2D`; 19 theorems). Cox-de Boor recursion; partition of unity, the not-a-knot collocation matrix is invertible for every strictly increasing axis (Schoenberg-Whitney theorem, proved by counting sign changes of derivatives in Lemmas/SchoenbergWhitney), interpolation and polynomial reproduction. *Note:* Exact arithmetic, degree at least one, strictly increasing coordinates.
* **C48 SplineInterpolate forward() without override uses the constructed output coordinates** (partial; `Props/Spline`, `Props/Spline2D`; 6 theorems). Histories of calls as lists. *Note:* False of the code once a call passes its own coordinates (override_persists is the machine-checked negation); proved for histories without overrides, and the actual behaviour is characterised for every history.
* **C49 Q-transform tiles stay inside the spectrum** (proved; `Props/QTile`, `Props/QTransform`, `Props/QTileSmall`; 36 theorems). Tile counts, paddings, indices, window and energies in closed form; init and compute decision theorems. *Note:* Exact arithmetic; frequencies at least 1/duration. frange_aliasing is a machine-checked finding (the caller's list is overwritten).
* **C50 QScan returns the Q plane with the maximum energy** (proved; `Props/QScan`, `Props/QTransform`, `Props/QEnergy`, `Props/QInterp`; 15 theorems). argmax over planes, ascending qs. *Note:* Exact arithmetic; argmax is a parameter with its stated property. searchTiles_reject and interpolate_squeezes are machine-checked findings.
* **C51 samples lie in the support** (proved; `Props/Distributions`; 7 theorems). Samples as functions of a uniform variable; law through Lebesgue measure of sublevel sets. *Note:* Samples are functions of the uniform draw; HasLaw states support and, through Lebesgue measure, the exact distribution function. LogNormal: the lower limit is ignored (finding).
* **C52 log_prob is a normalised log density** (partial; `Props/Distributions`, `Props/Volume`; 6 theorems). Integral of exp(log_prob) and the distribution function of the samples. *Note:* LogUniform and PowerLaw: the logarithm of a normalised density with the distribution function of the samples. Cosine and Sine log_prob lack the normalising constant (proved: integral is sin high - sin low, 2 at the defaults). UniformComovingVolume: log-linear interpolation of a trapezoid-normalised table; NaN in the first cell when the grid contains redshift zero.
* **C53 UniformComovingVolume interpolation and bounds** (proved; `Props/Volume`; 11 theorems). Piecewise-linear interpolation of cumulative tables. *Note:* For positive Hubble constant, matter density in [0,1] and a positive rate.
* **C54 mass conversions round trip** (proved; `Props/Conversion`; 2 theorems). Algebra of chirp mass and mass ratio. *Note:* Positive chirp mass and mass ratio; exact arithmetic.
* **C55 spin conversion preserves magnitudes and angles** (proved; `Props/Conversion`; 4 theorems). Rotation matrices; the output spins have the given magnitudes and angles. *Note:* Excludes a vanishing total angular momentum, where the code divides zero by zero.
* **C56 time-domain generator conditioning** (proved; `Props/GeneratorOut`, `Props/Generator`; 20 theorems). The conditioning pipeline composed to a closed form for every sample, for any approximant. *Note:* exact real arithmetic; approximant and IIR filter are parameters; findings: odd sample rates give a frequency grid coarser than df, and a non-integer duration*sample_rate shorter than the chirp gives one sample more than `size`
* **C57 final spin and time bounds are bounds** (proved; `Props/CbcUtils`, `Props/CbcTime`; 17 theorems). Polynomial and analytic inequalities; comparison with the 2PN stationary-phase time obtained by differentiating the phase. *Note:* Exact arithmetic.
* **C58 TaylorF2 is the 3.5PN stationary-phase waveform** (proved; `Props/TaylorF2`; 13 theorems). The coefficients equal the 3.5PN stationary-phase expansion in an independent spec; phase derivative. *Note:* exact real arithmetic, PI = pi; note that the docstring calls the mass ratio m1/m2 but the masses used have m2/m1 equal to it
* **C59 IMRPhenomD: pieces, joins, tables and strain** (proved; `Props/PhenomD`, `Props/PhenomDPieces`, `Props/PhenomDGlue`, `Props/PhenomDDomain`, `Props/PhenomDTable`; 39 theorems). 1 300 lines of fits and piecewise functions; derivatives proved with `HasDerivAt`; bounds over the whole physical domain by Bernstein certificates. *Note:* For every physical binary (positive masses, |spin| <= 1) the amplitude and phase are C1 at all positive frequencies, joins ordered, tables never left, no RuntimeError. Findings: the returned Dphasing omits the alignment constants C2Int / C2MRD above Mf = 0.018; for mass_ratio > 1 the reduced spin, final spin and amplitude take chi1 as the heavier body's spin while the inspiral phase gives it to the lighter.
* **C60 ad-hoc waveforms** (proved; `Props/Adhoc`; 13 theorems). Gaussian integrals for the root-sum-square strain; Echeverria fits inverted. *Note:* exact real arithmetic; finding: the ringdown's cross polarization is proportional to sin(inclination), so it vanishes face-on where the literature has 2 cos(inclination)
* **C61 ConvBlock match_size returns the requested length** (partial; `Props/Autoencoder`, `Props/AutoencoderNet`; 3 theorems). Shape arithmetic; counterexample for cropping. *Note:* Proved for targets at least L-1; for shrinking by two or more samples the claim is false of the code (match_size_crop_empty is the machine-checked negation: an empty tensor is returned).
* **C62 Autoencoder decode(encode(x)) shape** (partial; `Props/AutoencoderNet`; 10 theorems). Shape arithmetic through encoder and decoder; induction over layers. *Note:* The claim is false of the code: without skip connection, with module-class activations, or with concatenating skip connections forward always raises, and skip connections pair the wrong depths (all machine-checked); the shape claim is proved on the remaining domain.
* **C63 Skip connections preserve channels** (proved; `Props/Autoencoder`; 5 theorems). Channel arithmetic.
* **C64 ResNet shape correctness** (proved; `Props/ResNet`; 6 theorems). Shape arithmetic by induction over blocks and layers. *Note:* 1-D and 2-D, basic and bottleneck; one-layer networks raise UnboundLocalError (finding).
* **C65 S4D convolution equals the causal state-space recurrence** (proved; `Props/S4D`; 13 theorems). FFT convolution = causal convolution = recurrence, by induction over time. *Note:* Exact arithmetic.
* **C66 fast spectral density is exact above the two lowest bins** (proved; `Props/Spectral`; 2 theorems). Mean of the frame cancels above the two lowest bins of the Hann window.
* **C67 Whitening by a flat PSD rescales the demeaned input** (proved; `Props/WhitenFlat`; 1 theorems). Flat spectrum has a delta inverse filter. *Note:* Exact arithmetic.
* **C68 IMRPhenomPv2: twisting up is quadrupole radiation seen along the precessing orbital axis** (proved; `Props/PhenomPWave`, `Props/PhenomPTwist`, `Props/PhenomPForward`, `Props/PhenomPvsD`, `Props/PhenomPTime`; 12 theorems). Wigner d-matrices and spin-weighted harmonics compared with a quadrupole in the rotated frame (spec over 3x3 tensors). *Note:* exact real arithmetic; tensors as lists per batch element and frequency
* **C69 IMRPhenomPv2: convert_spins describes the source geometry** (proved; `Props/PhenomPGeom`; 8 theorems). Frame transformations; inner products of the geometric vectors.
* **C70 IMRPhenomPv2: the spins hold at the reference frequency** (proved; `Props/PhenomPOrbit`; 3 theorems). Evaluation of the angle series at the reference frequency. *Note:* the opening-angle part needs no in-plane spin on the lighter body: chi_p replaces the in-plane spins otherwise
* **C71 IMRPhenomPv2: aligned spins reduce to IMRPhenomD** (partial; `Props/PhenomPAligned`, `Props/PhenomPvsD`; 10 theorems). Comparison of the two models' contexts; counterexample with swapped squared spins. *Note:* proved when the squared spins agree or the masses do; false otherwise (aligned_D_fails: phenom_p.py:151-167 passes the two squared spins in the wrong order). Findings: phic has no effect on aligned binaries except exactly face-on (aligned_phic_ignored, face_on).
* **C72 IMRPhenomPv2: the ringdown lookup never fails on physical binaries** (proved; `Props/PhenomPRing`, `Props/PhenomPForward`, `Props/PhenomPvsD`; 10 theorems). Bernstein certificate for the final spin bound; table lookup. *Note:* finding: a final spin at or below -1 silently extrapolates from the far end of the table (lookup_below)
* **C73 IMRPhenomPv2: time of coalescence** (proved; `Props/PhenomPTime`; 4 theorems). Derivative of the phase at the ringdown frequency. *Note:* finding: tc is not in seconds
* **C74 IMRPhenomPv2: orbital angular momentum is the 2PN one** (partial; `Props/PhenomPOrbit`; 4 theorems). Coefficientwise comparison. *Note:* false of the code: the eta^2 v^4 term has the wrong sign; proved that nothing else differs
* **C75 IMRPhenomPv2: the Euler angles obey the minimal-rotation condition** (proved; `Props/PhenomPMinimal`; 7 theorems). Differentiating the angle series. *Note:* through relative order v^3; the v^4 coefficient is not claimed
* **C76 Exported constants agree with each other and with their stated units** (partial; `Props/Constants`; 5 theorems). Rational arithmetic with Mathlib's 20-digit bounds on pi. *Note:* Decimal literals as rationals. False of clightGpc, which is the speed of light in megaparsecs (not gigaparsecs) per second, and of MSUN at the 1.6e-8 level; both machine-checked.
* **C77 IIRFilter is a zero-phase linear filter** (proved; `Props/IIRFilter`, `Props/IIRSteady`; 11 theorems). Difference equation as a power-series identity; the backward pass is the transpose of the forward one; partial fractions over C for the decay of the impulse response. *Note:* exact real arithmetic; filtfilt/lfilter of torchaudio modelled by their documented meaning; the scipy design is a parameter here (see C78)
* **C78 The time-domain generator's highpass filter** (proved; `Props/Butter`, `Props/GeneratorFilter`; 10 theorems). SciPy's zpk design modelled; product over the roots of -1; bilinear transform on the unit circle; composed with C56 and C77. *Note:* exact real arithmetic; SciPy's Butterworth design (buttap, lp2hp_zpk, bilinear_zpk, zpk2tf) is modelled from its formulas
* **C79 IMRPhenomD and TaylorF2: modulus and phase fit together as a stationary-phase chirp** (proved; `Props/SpaPhenomD`, `Props/SpaTaylorF2`; 5 theorems). Amplitude and phase as series in the velocity (with v log v); second derivative of the phase; coefficients matched by ring; big-O of the quotient. *Note:* exact real arithmetic; mass_ratio at most one (first body the heavier), as the fits assume; the 3PN spin-squared term on which amplitude and phase disagree is given explicitly in spa_ratio
* **C80 get_max_energy reduces over exactly the dimensions it names** (proved; `Props/QEnergy`; 7 theorems). Maxima over the last dimension as Finset.sup'; IsGreatest of the set of energies for each dimension argument. *Note:* Exact arithmetic.
* **C81 The interpolated Q plane is a faithful resampling of the tiles** (proved; `Props/QInterp`, `Props/Resample`; 26 theorems). Cubic spline through the nodes from C47 (Schoenberg-Whitney, polynomial reproduction); F.interpolate kernels modelled, convexity of the bilinear weights, signs of the cubic ones. *Note:* Exact arithmetic; F.interpolate (align_corners=False, no antialiasing) and torch.logspace modelled from their documented formulas. cubic_negative is a finding: the bicubic plane can be negative although energies are not.
* **C82 Which Q transforms can be built and called** (proved; `Props/QScan`, `Props/QTransform`; 10 theorems). Constructor equations and their converses; counting distinct rounded frequencies with the exponential lower bound; numerical bounds on pi, log 2, e for the two concrete settings. *Note:* Exact arithmetic. scan_1s_800 and zero_frequency_fails are machine-checked findings: defaults that cannot be constructed together, and settings that construct but fail in every call.
* **C83 A column of the Q plane is one instant in every row** (partial; `Props/QInterp`; 3 theorems). Polynomial reproduction in time for the spline; exact shift of the sampling time for the bilinear kernel, which refutes the property for it. *Note:* False of the image methods (bilinear_misaligned is the machine-checked negation: rows with different numbers of tiles are read at different times); proved for the spline method.
* **C84 Batch elements are treated independently** (proved; `Props/Batch`, `Props/BatchGw`, `Props/BatchNet`, `Props/BatchQ`; 21 theorems). Commutation with index_select along the batch dimension, derived from the value theorems of each transform (rows or elements of the result as a function of the same rows or elements of the input). *Note:* exact arithmetic; Q transform with the default frequency range; QScan chooses one plane for the whole batch (C62, C82) and is not claimed; training-mode dropout is not claimed
* **C85 A binary's time-domain waveform does not depend on the rest of the batch** (partial; `Props/GeneratorBatch`; 3 theorems). The value theorem of the unfiltered series (C71) with its grid made explicit, the filter's locality, and for the negation a spectrum supported on one bin of the finer grid that the coarser grid misses. *Note:* False of the code: the frequency grid is chosen from the longest chirp of the batch (generator.py:197-204). Proved instead: two batches with equally long longest chirps give the same series to a binary they share (hence order and multiplicity do not matter), and for every generator and every binary there is a valid companion and an approximant with which the series is different, so the condition is not vacuous.
* **C86 A frequency-domain waveform is a function of the binary and the frequency** (proved; `Props/BatchWave`; 5 theorems). Entrywise value theorems of the three approximants; acceptance through the final-spin range and through the element-wise construction. *Note:* exact arithmetic; the equal-length check of the parameter tensors is C58/C59
* **C87 The whitening filter is as short as requested** (partial; `Props/WhitenLocal`; 7 theorems). Circular convolution theorem; support of the tapered impulse response; symmetry of the Hann taper; for the negation the exact kernel of one filter. *Note:* False of the code in general: after truncating the impulse response the code keeps only the modulus of its spectrum (spectral.py:436-438), and the modulus of a truncated filter's response is the response of a truncated filter only where it is not negative; whiten_leaks is the machine-checked negation (12 samples, Hann taper, lowpass). Proved for even lengths whenever the truncated response is non-negative, in particular for every PSD when the filter has at most four taps; for Hann tapers the response is proved real. Odd lengths: only the circular-convolution form (whitened_kernel).
* **C88 IMRPhenomPv2: turning the spins about the orbital axis** (proved; `Props/PhenomPTurn`; 3 theorems). Equivariance of atan2 under rotation up to 2 pi, invariance of chi_p and of the total angular momentum's polar angle, then the phase factor through the twist-up. *Note:* When the total angular momentum has no in-plane component (for example aligned spins) the source frame is not turned; see C71 (aligned_phic_ignored).
* **C89 Cross spectral densities are inner products** (proved; `Props/Coherence`; 5 theorems). Cauchy-Schwarz over the segments, symmetry of the median under negation; for the negation three two-sample segments with a single glitch each. *Note:* Finding: with average='median' (the function's default) no bound of this kind exists: coherence_median_unbounded exhibits, for every B, two series whose coherence exceeds B.
* **C90 Hdf5TimeSeriesDataset can return every combination of windows** (partial; `Props/Hdf5Reach`; 3 theorems). The cells read distinct random draws (injectivity of the draw number through np.unique, repeat and tile); the outcome is built from the target batch. *Note:* Proved for starts that leave at least one sample after the window. False of the last window of each dataset: randint excludes size - kernel_size (hdf5_dataset.py:159, 179, 184), so it is never returned (last_window_never is the machine-checked negation, for every data set).
* **C91 Spectral density estimates of white noise are unbiased** (proved; `Props/SpectralNoise`; 5 theorems). Order statistics of independent exponential variables (Renyi sums by the layer-cake formula and induction), the harmonic identity with the code's bias, joint Gaussianity and zero covariance => independence of the real and imaginary parts of all segments, characteristic function of a sum of two squares. *Note:* Expectation is Mathlib's Bochner integral over an arbitrary probability space on which the input tensor is a random variable; integrability is part of the conclusion. White / GaussianWhite are in Spec/SpectralNoise.lean. Overlapping segments with the median average are not claimed (the segments are then correlated and the correction is not exact).
* **C92 The SNR does not depend on arrival time, sign or time direction** (proved; `Props/SnrInvariance`; 3 theorems). Closed form of the SNR (C31's lemmas), magnitude of the DFT under circular shift, reversal and negation. *Note:* Real arithmetic. The circular shift keeps every sample, so nothing is lost at the edges.
* **C93 Sampled windows are independent uniform draws** (proved; `Props/SampleUniform`, `Props/ChunkedDraws`; 10 theorems). Explicit value of every drawn index, numbering of an integer interval, Mathlib's iIndepFun for the probability of a batch; induction over the chunks. *Note:* That torch.randint is itself uniform is the hypothesis UniformDraws (Spec/UniformDraws.lean; shown satisfiable for every n). The admissible starts exclude the last window (C09).
* **C94 Whitened noise is calibrated** (proved; `Props/WhitenNoise`; 4 theorems). Whitening as a linear form whose weights are diagonal on the characters of Z/N; bilinearity of the covariance; Parseval and Hann sums for the odd case. *Note:* Stationary (on the circle of N samples) and White are in Spec/SpectralNoise.lean; the filter's gain is the response of Spec/Whiten.lean's truncated filter. Real arithmetic.
* **C95 Q tiles follow the data in time and amplitude** (proved; `Props/QTileShift`; 2 theorems). Shift theorem for the real transform; the phase over the consecutive bins of a row is a constant times a phase of the short inverse transform; the mean and the median are invariant under permutation and homogeneous. *Note:* In exact arithmetic; rows whose window is clamped at the ends of the spectrum are excluded by the hypothesis Inside.
* **C96 A row of Q tiles responds most to a tone at its own frequency** (partial; `Props/QTileTone`; 3 theorems). Spectrum of a tone by orthogonality of the roots of unity; single-bin evaluation of the short inverse transform. *Note:* False of the code as stated: get_data_indices adds one, so the response is centred one spectral bin (1/duration Hz) above the frequency of the row. tiles_tone_partial proves the closed form with that offset, and tone_off_centre that in every row inside the spectrum a tone at the frequency of the row gives strictly less energy than one a bin higher.
* **C97 Networks built with zero_init_residual start as their shortcuts** (proved; `Props/ResNetInit`; 5 theorems). Inversion of the constructors and of forward; induction over the blocks of a layer and over the layers with idempotence of the ReLU. *Note:* no_flag_no_identity shows that without the flag a fresh block need not be the identity.
* **C98 Residual networks treat batch elements independently** (proved; `Props/ResNetBatch`; 5 theorems). A relation between single elements of two batches is preserved by every layer; induction over blocks and layers. *Note:* Convolutions, pooling, group norm and the linear layer are modelled numerically (exact arithmetic). batch_mean_mixes shows that the hypothesis on the norm layer is needed.
* **C99 IMRPhenomD is the published phenomenological model** (proved; `Props/PhenomDModel`; 4 theorems). Fits as polynomials: ring normalisation per parameter against a rational coefficient array; array against Table V by kernel evaluation over the rationals; regions and slopes from C59; Kerr values from interpolation at knots with decimal bounds on pi; smoothness by a structurally recursive checker proved sound by induction and evaluated in the kernel. *Note:* Spec/PhenomDModel.lean holds the published ansatz and tables, written from the literature to its printed digits. For mass_ratio > 1 the reduced spin is evaluated with exchanged spins (C59, chiPN_above_one_wrong). Table entries within 0.02 of extremal spin are only bounded and monotone (C59).
* **C100 Residual network layers are centred convolutions, max pooling, group statistics and averaging** (proved; `Props/ResNetLayers`; 9 theorems). Sums over index lists turned into finite sums; reading positions against a zero-continued sequence on the integers by linear arithmetic; the constructor inverted step by step for the stem; greatest element of the window by membership. *Note:* The torch layers' index arithmetic (stride, padding, dilation, groups, empty pooling positions) is in Model/Conv.lean; real arithmetic. The one-dimensional norm is C22.
* **C101 UniformComovingVolume follows flat Lambda-CDM and is uniform in comoving volume** (proved; `Props/Cosmology`; 2 theorems). Trapezoid error per cell from monotonicity of 1/H, telescoped; ratios of neighbouring steps of every distance bounded by (1+dz)^2, hence of the numerical Jacobian; cell masses against the cube of the distance by induction over cells; the set of draws as an interval of the cumulative table. *Note:* Real arithmetic. Between grid points the density is interpolated (C53).
* **C102 The precession angles of IMRPhenomPv2 advance at the post-Newtonian rate** (proved; `Props/PhenomPPrecession`; 2 theorems). Length of the total angular momentum expanded through v^4 with a bound uniform in the orbital phase (compactness), averaged with the integrals of cos^2 and cos^4; quotient of series by an explicit remainder polynomial; the five coefficient identities by field_simp and ring over the mass ratio and both spins. *Note:* Real arithmetic. The statement is an expansion at low velocity: that is what the published coefficients are. alphaAt and epsAt are the angles the polarizations are built from (C75 and the theorems of Props/PhenomPWave).
* **C103 The phases of TaylorF2, IMRPhenomD and IMRPhenomPv2 solve the binary's energy balance** (proved; `Props/BalanceTaylorF2`, `Props/BalancePhenomD`, `Props/BalancePhenomP`; 4 theorems). Second derivative of the phase as a series in the velocity, product with the flux against the derivative of the energy, order by order; the coefficient identities by ring in the mass fraction and the two spins; the quotient of the two series by an explicit continuous remainder in (v, v log v). *Note:* Real arithmetic; an expansion at low frequency, as the published series are. The energy and the flux are in Spec/Balance, written from the literature; the 3.5PN spin-orbit term of the energy was also recomputed from the effective-one-body spin-orbit Hamiltonian outside Lean.
* **C104 chirp_time_bound bounds the sweep time that the energy balance gives** (proved; `Props/CbcBalance`; 1 theorems). Derivative of the bound as a power series in the velocity; the balance's time per frequency as a quotient of two series agreeing with it through second order; the difference at third order is at least 4 pi by the spin-orbit inequality; continuity of the rest in (v, v log v); integration by the fundamental theorem of calculus. *Note:* Real arithmetic. Asymptotic in the starting frequency: at high frequency the post-Newtonian flux is not even positive. The bound against the 2PN time at every frequency is in C57.
* **C105 A waveform does not depend on which body is called the first** (partial; `Props/TaylorF2`, `Props/PhenomDExchange`; 4 theorems). Inverting the mass ratio exchanges the masses and nothing else among the arguments; the phase by the symmetry of the post-Newtonian series and uniqueness of derivatives at the joins; the negation by the first spin-dependent order of the amplitude at low frequency. *Note:* Proved for TaylorF2, and for IMRPhenomD with equal spins. False for IMRPhenomD otherwise (exchange_fails): the amplitude, the reduced spin and the final spin always give chi1 to the heavier body (exchange_modulus), the post-Newtonian phase gives it to mass_1, which is the lighter one for mass_ratio > 1 (phenom_d.py:91-109). So mass_ratio > 1 mixes two binaries.
* **C106 Gravity has no scale, and neither do the waveforms** (proved; `Props/ScaleFree`; 3 theorems). Every intermediate quantity is homogeneous in the masses: degree 0 for the phase and fits (functions of M f and mass ratios), 1 for time shifts, 2 for the total angular momentum, of which only directions are used. *Note:* tc of IMRPhenomPv2 is kept: the code measures it in units of the total mass (C73). Over the reals.
* **C107 Turning or mirroring a non-precessing source acts on the polarizations by the known rule** (proved; `Props/SourceTurn`; 8 theorems). The phase enters the strain only through exp(2i phic), the inclination only through its cosine. *Note:* Exact arithmetic. For IMRPhenomPv2 see C68, C71 and C88.

## Findings (each is a theorem about the model)
* `slice_kernels` on 1-D tensors wraps negative starts (C05). `sample_kernels` never draws the last start and rejects T == kernel_size (C09), ignores N = 0 (C08), and
  offset 0 can miss the centre sample (C07).
* `ChunkedTimeSeriesDataset` keeps the first chunk's geometry (C15).
* Partial state dicts mark a transform as built (C31). `FixedWhiten` crops by a rounded `fduration` and ignores `overlap=0` (C30).
* `Heterodyne` returns one sample fewer for odd lengths (C44). `Decimator` is wrong for gaps and one-sample segments (C39). `LeakyIntegrator` starts from zero, not the lower bound (C42).
* Spectrogram keyword broadcast fails at lengths 8, 16, ... (C43). Spline output coordinates passed to one call persist (C48). `SingleQTransform` overwrites the caller's list (C49).
  Q rows with at most half a tile of time resolution raise (C49).
* `Cosine`/`Sine` log-probabilities are not normalised; `LogNormal` ignores its lower limit (C51, C52).
* `ConvBlock` cropping by two or more returns an empty tensor (C61); the convolutional autoencoder raises without skip connections and pairs the wrong depths (C62); one-layer ResNets raise (C64).
* The returned derivative of the IMRPhenomD phase omits alignment constants; for mass_ratio > 1 spins are attributed inconsistently (C59). IMRPhenomPv2: squared spins swapped (C71), sign of an
  angular-momentum term (C74), `tc` not in seconds (C73), `phic` ignored for aligned binaries (C71).
* Ringdown cross polarization vanishes face-on (C60). Generator: odd sample rates and non-integer lengths (C56). `clightGpc` is per megaparsec (C76).
* TaylorF2 and IMRPhenom docstrings call the mass ratio m1/m2; the code uses m2/m1 (C58).

## Checking
`cd lean && lake build`; `vcheck` from a clean copy.
