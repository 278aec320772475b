import Verif.Model.PhenomD
import Mathlib.Tactic.Positivity
/-!
# IMRPhenomD: the fits on the physical domain (C59)

Each bound is a polynomial identity with nonnegative coefficients in the distances to the edges of the domain.
-/
namespace Verif.PhenomD

/-- Symmetric mass ratio and reduced spin of a physical binary. -/
def Dom (eta xi : ℝ) : Prop := 0 ≤ eta ∧ eta ≤ 1 / 4 ∧ -2 ≤ xi ∧ xi ≤ 0

/-- `gamma1 ≥ 0.002`. -/
theorem gamma1_lower (eta xi : ℝ) (h : Dom eta xi) : 0.002 ≤ gamma1 eta (eta * eta) xi := by
  obtain ⟨h1, h2, h3, h4⟩ := h
  obtain ⟨b, hb⟩ : ∃ b, b = 1 / 4 - eta := ⟨_, rfl⟩
  obtain ⟨t, ht⟩ : ∃ t, t = xi + 2 := ⟨_, rfl⟩
  obtain ⟨u, hu⟩ : ∃ u, u = -xi := ⟨_, rfl⟩
  have b0 : 0 ≤ b := by linarith
  have t0 : 0 ≤ t := by linarith
  have u0 : 0 ≤ u := by linarith
  have key : gamma1 eta (eta * eta) xi - 0.002 =
      363573859740461 / 2500000000000000000 * b ^ 2 * u ^ 3 + 16054101630199313 / 2500000000000000000 * b ^ 2 * t * u ^ 2 + 2166159542572687 / 500000000000000000 * b ^ 2 * t ^ 2 * u
       + 4927402739328343 / 500000000000000000 * b ^ 2 * t ^ 3 + 152663032310160319 / 5000000000000000000 * eta * b * u ^ 3 + 420231183289741977 / 5000000000000000000 * eta * b * t * u ^ 2
       + 174713059136535793 / 1000000000000000000 * eta * b * t ^ 2 * u + 34811982408957927 / 1000000000000000000 * eta * b * t ^ 3 + 67219838936427761 / 2500000000000000000 * eta ^ 2 * u ^ 3
       + 204403590778551963 / 2500000000000000000 * eta ^ 2 * t * u ^ 2 + 104701742786937109 / 1000000000000000000 * eta ^ 2 * t ^ 2 * u + 24957176930301241 / 1000000000000000000 * eta ^ 2 * t ^ 3 := by
    unfold gamma1; rw [hb, ht, hu]; ring
  have : 0 ≤ gamma1 eta (eta * eta) xi - 0.002 := by rw [key]; positivity
  linarith

/-- `gamma2 ≥ 0.2`. -/
theorem gamma2_lower (eta xi : ℝ) (h : Dom eta xi) : 0.2 ≤ gamma2 eta (eta * eta) xi := by
  obtain ⟨h1, h2, h3, h4⟩ := h
  obtain ⟨b, hb⟩ : ∃ b, b = 1 / 4 - eta := ⟨_, rfl⟩
  obtain ⟨t, ht⟩ : ∃ t, t = xi + 2 := ⟨_, rfl⟩
  obtain ⟨u, hu⟩ : ∃ u, u = -xi := ⟨_, rfl⟩
  have b0 : 0 ≤ b := by linarith
  have t0 : 0 ≤ t := by linarith
  have u0 : 0 ≤ u := by linarith
  have key : gamma2 eta (eta * eta) xi - 0.2 =
      10271027815357617 / 12500000000000000 * b ^ 2 * u ^ 3 + 42777197166320301 / 12500000000000000 * b ^ 2 * t * u ^ 2 + 1863134980789513 / 500000000000000 * b ^ 2 * t ^ 2 * u
       + 810344404799477 / 500000000000000 * b ^ 2 * t ^ 3 + 12065291551661783237 / 5000000000000000000 * eta * b * u ^ 3 + 4475440614522246711 / 5000000000000000000 * eta * b * t * u ^ 2
       + 57518209272085710911 / 5000000000000000000 * eta * b * t ^ 2 * u + 16209136376491348637 / 5000000000000000000 * eta * b * t ^ 3 + 5362453811588301437 / 5000000000000000000 * eta ^ 2 * u ^ 3
       + 16307222241656898811 / 5000000000000000000 * eta ^ 2 * t * u ^ 2 + 22377074248358873411 / 5000000000000000000 * eta ^ 2 * t ^ 2 * u + 8105692328496578637 / 5000000000000000000 * eta ^ 2 * t ^ 3 := by
    unfold gamma2; rw [hb, ht, hu]; ring
  have : 0 ≤ gamma2 eta (eta * eta) xi - 0.2 := by rw [key]; positivity
  linarith

/-- `gamma2 ≤ 1.2`. -/
theorem gamma2_upper (eta xi : ℝ) (h : Dom eta xi) : gamma2 eta (eta * eta) xi ≤ 1.2 := by
  obtain ⟨h1, h2, h3, h4⟩ := h
  obtain ⟨b, hb⟩ : ∃ b, b = 1 / 4 - eta := ⟨_, rfl⟩
  obtain ⟨t, ht⟩ : ∃ t, t = xi + 2 := ⟨_, rfl⟩
  obtain ⟨u, hu⟩ : ∃ u, u = -xi := ⟨_, rfl⟩
  have b0 : 0 ≤ b := by linarith
  have t0 : 0 ≤ t := by linarith
  have u0 : 0 ≤ u := by linarith
  have key : 1.2 - gamma2 eta (eta * eta) xi =
      14728972184642383 / 12500000000000000 * b ^ 2 * u ^ 3 + 32222802833679699 / 12500000000000000 * b ^ 2 * t * u ^ 2 + 1136865019210487 / 500000000000000 * b ^ 2 * t ^ 2 * u
       + 189655595200523 / 500000000000000 * b ^ 2 * t ^ 3 + 7934708448338216763 / 5000000000000000000 * eta * b * u ^ 3 + 55524559385477753289 / 5000000000000000000 * eta * b * t * u ^ 2
       + 2481790727914289089 / 5000000000000000000 * eta * b * t ^ 2 * u + 3790863623508651363 / 5000000000000000000 * eta * b * t ^ 3 + 4637546188411698563 / 5000000000000000000 * eta ^ 2 * u ^ 3
       + 13692777758343101189 / 5000000000000000000 * eta ^ 2 * t * u ^ 2 + 7622925751641126589 / 5000000000000000000 * eta ^ 2 * t ^ 2 * u + 1894307671503421363 / 5000000000000000000 * eta ^ 2 * t ^ 3 := by
    unfold gamma2; rw [hb, ht, hu]; ring
  have : 0 ≤ 1.2 - gamma2 eta (eta * eta) xi := by rw [key]; positivity
  linarith

/-- `gamma3 ≥ 1.2`. -/
theorem gamma3_lower (eta xi : ℝ) (h : Dom eta xi) : 1.2 ≤ gamma3 eta (eta * eta) xi := by
  obtain ⟨h1, h2, h3, h4⟩ := h
  obtain ⟨b, hb⟩ : ∃ b, b = 1 / 4 - eta := ⟨_, rfl⟩
  obtain ⟨t, ht⟩ : ∃ t, t = xi + 2 := ⟨_, rfl⟩
  obtain ⟨u, hu⟩ : ∃ u, u = -xi := ⟨_, rfl⟩
  have b0 : 0 ≤ b := by linarith
  have t0 : 0 ≤ t := by linarith
  have u0 : 0 ≤ u := by linarith
  have key : gamma3 eta (eta * eta) xi - 1.2 =
      20257485865676451 / 125000000000000000 * b ^ 2 * u ^ 3 + 299951800530623 / 390625000000000 * b ^ 2 * t * u ^ 2 + 23007152044162597 / 25000000000000000 * b ^ 2 * t ^ 2 * u
       + 540807803518053 / 2500000000000000 * b ^ 2 * t ^ 3 + 542745897805713277 / 1000000000000000000 * eta * b * u ^ 3 + 880654977705729243 / 1000000000000000000 * eta * b * t * u ^ 2
       + 2501249066067507943 / 1000000000000000000 * eta * b * t ^ 2 * u + 429877377967038561 / 1000000000000000000 * eta * b * t ^ 3 + 184064181352976019 / 1000000000000000000 * eta ^ 2 * u ^ 3
       + 821544989485086363 / 1000000000000000000 * eta ^ 2 * t * u ^ 2 + 730175992767483313 / 1000000000000000000 * eta ^ 2 * t ^ 2 * u + 213554256559817361 / 1000000000000000000 * eta ^ 2 * t ^ 3 := by
    unfold gamma3; rw [hb, ht, hu]; ring
  have : 0 ≤ gamma3 eta (eta * eta) xi - 1.2 := by rw [key]; positivity
  linarith

/-- `gamma3 ≤ 1.5`. -/
theorem gamma3_upper (eta xi : ℝ) (h : Dom eta xi) : gamma3 eta (eta * eta) xi ≤ 1.5 := by
  obtain ⟨h1, h2, h3, h4⟩ := h
  obtain ⟨b, hb⟩ : ∃ b, b = 1 / 4 - eta := ⟨_, rfl⟩
  obtain ⟨t, ht⟩ : ∃ t, t = xi + 2 := ⟨_, rfl⟩
  obtain ⟨u, hu⟩ : ∃ u, u = -xi := ⟨_, rfl⟩
  have b0 : 0 ≤ b := by linarith
  have t0 : 0 ≤ t := by linarith
  have u0 : 0 ≤ u := by linarith
  have key : 1.5 - gamma3 eta (eta * eta) xi =
      54742514134323549 / 125000000000000000 * b ^ 2 * u ^ 3 + 403173199469377 / 390625000000000 * b ^ 2 * t * u ^ 2 + 21992847955837403 / 25000000000000000 * b ^ 2 * t ^ 2 * u
       + 959192196481947 / 2500000000000000 * b ^ 2 * t ^ 3 + 657254102194286723 / 1000000000000000000 * eta * b * u ^ 3 + 2719345022294270757 / 1000000000000000000 * eta * b * t * u ^ 2
       + 1098750933932492057 / 1000000000000000000 * eta * b * t ^ 2 * u + 770122622032961439 / 1000000000000000000 * eta * b * t ^ 3 + 415935818647023981 / 1000000000000000000 * eta ^ 2 * u ^ 3
       + 978455010514913637 / 1000000000000000000 * eta ^ 2 * t * u ^ 2 + 1069824007232516687 / 1000000000000000000 * eta ^ 2 * t ^ 2 * u + 386445743440182639 / 1000000000000000000 * eta ^ 2 * t ^ 3 := by
    unfold gamma3; rw [hb, ht, hu]; ring
  have : 0 ≤ 1.5 - gamma3 eta (eta * eta) xi := by rw [key]; positivity
  linarith

/-- `ampIntCol ≥ 0.04`. -/
theorem ampIntCol_lower (eta xi : ℝ) (h : Dom eta xi) : 0.04 ≤ ampIntCol eta (eta * eta) xi := by
  obtain ⟨h1, h2, h3, h4⟩ := h
  obtain ⟨b, hb⟩ : ∃ b, b = 1 / 4 - eta := ⟨_, rfl⟩
  obtain ⟨t, ht⟩ : ∃ t, t = xi + 2 := ⟨_, rfl⟩
  obtain ⟨u, hu⟩ : ∃ u, u = -xi := ⟨_, rfl⟩
  have b0 : 0 ≤ b := by linarith
  have t0 : 0 ≤ t := by linarith
  have u0 : 0 ≤ u := by linarith
  have key : ampIntCol eta (eta * eta) xi - 0.04 =
      677101219593717 / 5000000000000000 * b ^ 2 * u ^ 3 + 7091855803963547 / 5000000000000000 * b ^ 2 * t * u ^ 2 + 29120120529783 / 5000000000000000 * b ^ 2 * t ^ 2 * u
       + 1549967746101557 / 1000000000000000 * b ^ 2 * t ^ 3 + 8305461787230759 / 5000000000000000 * eta * b * u ^ 3 + 59730503282274301 / 10000000000000000 * eta * b * t * u ^ 2
       + 3897848908990791 / 625000000000000 * eta * b * t ^ 2 * u + 43873131680758469 / 10000000000000000 * eta * b * t ^ 3 + 12736923064199981 / 10000000000000000 * eta ^ 2 * u ^ 3
       + 94523576675268649 / 20000000000000000 * eta ^ 2 * t * u ^ 2 + 18151898214059663 / 4000000000000000 * eta ^ 2 * t ^ 2 * u + 28373454219742899 / 10000000000000000 * eta ^ 2 * t ^ 3 := by
    unfold ampIntCol; rw [hb, ht, hu]; ring
  have : 0 ≤ ampIntCol eta (eta * eta) xi - 0.04 := by rw [key]; positivity
  linarith

/-- The final spin does not exceed 1. -/
theorem finalSpin_upper (eta u : ℝ) (h1 : 0 < eta) (h2 : eta ≤ 1 / 4) (h3 : -1 ≤ u) (h4 : u ≤ 1) : finalSpinOf eta (eta * eta) ((1 - 2 * eta) * u) ≤ 1 := by
  obtain ⟨b, hb⟩ : ∃ b, b = 1 / 4 - eta := ⟨_, rfl⟩
  obtain ⟨t, ht⟩ : ∃ t, t = u + 1 := ⟨_, rfl⟩
  obtain ⟨w, hw⟩ : ∃ w, w = 1 - u := ⟨_, rfl⟩
  have b0 : 0 ≤ b := by linarith
  have t0 : 0 ≤ t := by linarith
  have w0 : 0 ≤ w := by linarith
  have e0 : 0 ≤ eta := by linarith
  have key : 1 - finalSpinOf eta (eta * eta) ((1 - 2 * eta) * u) =
      512 * b ^ 6 * w ^ 4 + 1536 * b ^ 6 * t * w ^ 3 + 1536 * b ^ 6 * t ^ 2 * w ^ 2 + 512 * b ^ 6 * t ^ 3 * w + 209311781759481497 / 78125000000000 * eta * b ^ 5 * w ^ 4
       + 626059917788539423 / 78125000000000 * eta * b ^ 5 * t * w ^ 3 + 643122524846505863 / 78125000000000 * eta * b ^ 5 * t ^ 2 * w ^ 2 + 32133628039145649 / 15625000000000 * eta * b ^ 5 * t ^ 3 * w
       + 185475309936231 / 3906250000000 * eta * b ^ 5 * t ^ 4 + 3617135930618543467 / 625000000000000 * eta ^ 2 * b ^ 4 * w ^ 4 + 676282103830739549 / 39062500000000 * eta ^ 2 * b ^ 4 * t * w ^ 3
       + 1099846567692145229 / 62500000000000 * eta ^ 2 * b ^ 4 * t ^ 2 * w ^ 2 + 19695298652458469 / 4882812500000 * eta ^ 2 * b ^ 4 * t ^ 3 * w + 61640903313359587 / 625000000000000 * eta ^ 2 * b ^ 4 * t ^ 4
       + 4098378588172356649 / 625000000000000 * eta ^ 3 * b ^ 3 * w ^ 4 + 6096418641270884393 / 312500000000000 * eta ^ 3 * b ^ 3 * t * w ^ 3
       + 3051780669632499601 / 156250000000000 * eta ^ 3 * b ^ 3 * t ^ 2 * w ^ 2 + 1450138883794985163 / 312500000000000 * eta ^ 3 * b ^ 3 * t ^ 3 * w
       + 566079448913399 / 5000000000000 * eta ^ 3 * b ^ 3 * t ^ 4 + 5080037458534006751 / 1250000000000000 * eta ^ 4 * b ^ 2 * w ^ 4 + 59930024045199947 / 5000000000000 * eta ^ 4 * b ^ 2 * t * w ^ 3
       + 7429432803009039833 / 625000000000000 * eta ^ 4 * b ^ 2 * t ^ 2 * w ^ 2 + 1929687330029325059 / 625000000000000 * eta ^ 4 * b ^ 2 * t ^ 3 * w
       + 26707856025858711 / 250000000000000 * eta ^ 4 * b ^ 2 * t ^ 4 + 3233309680378590147 / 2500000000000000 * eta ^ 5 * b * w ^ 4 + 2363966596305824289 / 625000000000000 * eta ^ 5 * b * t * w ^ 3
       + 936558457336283833 / 250000000000000 * eta ^ 5 * b * t ^ 2 * w ^ 2 + 675578348396888469 / 625000000000000 * eta ^ 5 * b * t ^ 3 * w + 148274124549770251 / 2500000000000000 * eta ^ 5 * b * t ^ 4
       + 12844446648157891 / 78125000000000 * eta ^ 6 * w ^ 4 + 59735334260453413 / 125000000000000 * eta ^ 6 * t * w ^ 3 + 14893018253999281 / 31250000000000 * eta ^ 6 * t ^ 2 * w ^ 2
       + 95675797096860429 / 625000000000000 * eta ^ 6 * t ^ 3 * w + 3901969595680921 / 312500000000000 * eta ^ 6 * t ^ 4 := by
    unfold finalSpinOf; rw [hb, ht, hw]; field_simp; ring
  have : 0 ≤ 1 - finalSpinOf eta (eta * eta) ((1 - 2 * eta) * u) := by rw [key]; positivity
  linarith

/-- The final spin is at least -1. -/
theorem finalSpin_lower (eta u : ℝ) (h1 : 0 < eta) (h2 : eta ≤ 1 / 4) (h3 : -1 ≤ u) (h4 : u ≤ 1) : -1 ≤ finalSpinOf eta (eta * eta) ((1 - 2 * eta) * u) := by
  obtain ⟨b, hb⟩ : ∃ b, b = 1 / 4 - eta := ⟨_, rfl⟩
  obtain ⟨t, ht⟩ : ∃ t, t = u + 1 := ⟨_, rfl⟩
  obtain ⟨w, hw⟩ : ∃ w, w = 1 - u := ⟨_, rfl⟩
  have b0 : 0 ≤ b := by linarith
  have t0 : 0 ≤ t := by linarith
  have w0 : 0 ≤ w := by linarith
  have e0 : 0 ≤ eta := by linarith
  have key : 1 + finalSpinOf eta (eta * eta) ((1 - 2 * eta) * u) =
      512 * b ^ 6 * t * w ^ 3 + 1536 * b ^ 6 * t ^ 2 * w ^ 2 + 1536 * b ^ 6 * t ^ 3 * w + 512 * b ^ 6 * t ^ 4 + 30688218240518503 / 78125000000000 * eta * b ^ 5 * w ^ 4
       + 333940082211460577 / 78125000000000 * eta * b ^ 5 * t * w ^ 3 + 796877475153494137 / 78125000000000 * eta * b ^ 5 * t ^ 2 * w ^ 2 + 159866371960854351 / 15625000000000 * eta * b ^ 5 * t ^ 3 * w
       + 11814524690063769 / 3906250000000 * eta * b ^ 5 * t ^ 4 + 1182864069381456533 / 625000000000000 * eta ^ 2 * b ^ 4 * w ^ 4 + 523717896169260451 / 39062500000000 * eta ^ 2 * b ^ 4 * t * w ^ 3
       + 1780153432307854771 / 62500000000000 * eta ^ 2 * b ^ 4 * t ^ 2 * w ^ 2 + 130304701347541531 / 4882812500000 * eta ^ 2 * b ^ 4 * t ^ 3 * w
       + 4738359096686640413 / 625000000000000 * eta ^ 2 * b ^ 4 * t ^ 4 + 2301621411827643351 / 625000000000000 * eta ^ 3 * b ^ 3 * w ^ 4 + 6703581358729115607 / 312500000000000 * eta ^ 3 * b ^ 3 * t * w ^ 3
       + 6548219330367500399 / 156250000000000 * eta ^ 3 * b ^ 3 * t ^ 2 * w ^ 2 + 11349861116205014837 / 312500000000000 * eta ^ 3 * b ^ 3 * t ^ 3 * w
       + 50633920551086601 / 5000000000000 * eta ^ 3 * b ^ 3 * t ^ 4 + 4519962541465993249 / 1250000000000000 * eta ^ 4 * b ^ 2 * w ^ 4 + 93669975954800053 / 5000000000000 * eta ^ 4 * b ^ 2 * t * w ^ 3
       + 21370567196990960167 / 625000000000000 * eta ^ 4 * b ^ 2 * t ^ 2 * w ^ 2 + 17270312669970674941 / 625000000000000 * eta ^ 4 * b ^ 2 * t ^ 3 * w
       + 1893292143974141289 / 250000000000000 * eta ^ 4 * b ^ 2 * t ^ 4 + 4446690319621409853 / 2500000000000000 * eta ^ 5 * b * w ^ 4 + 5316033403694175711 / 625000000000000 * eta ^ 5 * b * t * w ^ 3
       + 3671441542663716167 / 250000000000000 * eta ^ 5 * b * t ^ 2 * w ^ 2 + 7004421651603111531 / 625000000000000 * eta ^ 5 * b * t ^ 3 * w + 7531725875450229749 / 2500000000000000 * eta ^ 5 * b * t ^ 4
       + 27155553351842109 / 78125000000000 * eta ^ 6 * w ^ 4 + 196264665739546587 / 125000000000000 * eta ^ 6 * t * w ^ 3 + 81106981746000719 / 31250000000000 * eta ^ 6 * t ^ 2 * w ^ 2
       + 1184324202903139571 / 625000000000000 * eta ^ 6 * t ^ 3 * w + 156098030404319079 / 312500000000000 * eta ^ 6 * t ^ 4 := by
    unfold finalSpinOf; rw [hb, ht, hw]; field_simp; ring
  have : 0 ≤ 1 + finalSpinOf eta (eta * eta) ((1 - 2 * eta) * u) := by rw [key]; positivity
  linarith

/-- The radiated energy is nonnegative and below 12 per cent. -/
theorem erad_bounds (eta u : ℝ) (h1 : 0 ≤ eta) (h2 : eta ≤ 1 / 4) (h3 : -1 ≤ u) (h4 : u ≤ 1) :
    0 ≤ eradOf eta (eta * eta) u ∧ eradOf eta (eta * eta) u ≤ 0.12 := by
  obtain ⟨b, hb⟩ : ∃ b, b = 1 / 4 - eta := ⟨_, rfl⟩
  obtain ⟨t, ht⟩ : ∃ t, t = u + 1 := ⟨_, rfl⟩
  obtain ⟨w, hw⟩ : ∃ w, w = 1 - u := ⟨_, rfl⟩
  have b0 : 0 ≤ b := by linarith
  have t0 : 0 ≤ t := by linarith
  have w0 : 0 ≤ w := by linarith
  have e0 : 0 ≤ eta := by linarith
  have dpos : 0 < (1 + ((-0.6714403054720589) - 1.4756929437702908 * eta + 7.304676214885011 * (eta * eta)) * u) := by
    have key : (1 + ((-0.6714403054720589) - 1.4756929437702908 * eta + 7.304676214885011 * (eta * eta)) * u) - 0.1 =
      15714403054720589 / 1250000000000000 * b ^ 2 * w + 2285596945279411 / 1250000000000000 * b ^ 2 * t + 7023607693773381 / 250000000000000 * eta * b * w + 176392306226619 / 250000000000000 * eta * b * t
       + 118705702238745473 / 10000000000000000 * eta ^ 2 * w + 25294297761254527 / 10000000000000000 * eta ^ 2 * t := by
      rw [hb, ht, hw]; ring
    have : 0 ≤ (1 + ((-0.6714403054720589) - 1.4756929437702908 * eta + 7.304676214885011 * (eta * eta)) * u) - 0.1 := by rw [key]; positivity
    linarith
  have npos : 0 ≤ eta * (0.055974469826360077 + 0.5809510763115132 * eta - 0.9606726679372312 * (eta * eta) + 3.352411249771192 * (eta * eta * eta)) * (1 + ((-0.0030302335878845507) - 2.0066110851351073 * eta + 7.7050567802399215 * (eta * eta)) * u) := by
    have key : eta * (0.055974469826360077 + 0.5809510763115132 * eta - 0.9606726679372312 * (eta * eta) + 3.352411249771192 * (eta * eta * eta)) * (1 + ((-0.0030302335878845507) - 2.0066110851351073 * eta + 7.7050567802399215 * (eta * eta)) * u) =
      561440855448919436197483418835624039 / 19531250000000000000000000000000000 * eta * b ^ 5 * w + 558048541078282103802516581164375961 / 19531250000000000000000000000000000 * eta * b ^ 5 * t
       + 908956098155921807823221156160814709 / 3906250000000000000000000000000000 * eta ^ 2 * b ^ 4 * w + 791484374682792932176778843839185291 / 3906250000000000000000000000000000 * eta ^ 2 * b ^ 4 * t
       + 4968603531169033257584042658528617181 / 7812500000000000000000000000000000 * eta ^ 3 * b ^ 3 * w + 3676626331463262902415957341471382819 / 7812500000000000000000000000000000 * eta ^ 3 * b ^ 3 * t
       + 6054014111478577058784012907973688341 / 7812500000000000000000000000000000 * eta ^ 4 * b ^ 2 * w + 4373398794683939701215987092026311659 / 7812500000000000000000000000000000 * eta ^ 4 * b ^ 2 * t
       + 3571750688634018852394162279855738483 / 7812500000000000000000000000000000 * eta ^ 5 * b * w + 2711930525449441027605837720144261517 / 7812500000000000000000000000000000 * eta ^ 5 * b * t
       + 1980259473076180526004907137481773489 / 19531250000000000000000000000000000 * eta ^ 6 * w + 1890772985640545513995092862518226511 / 19531250000000000000000000000000000 * eta ^ 6 * t := by
      rw [hb, ht, hw]; ring
    rw [key]; positivity
  have upos : 0 ≤ 0.12 * (1 + ((-0.6714403054720589) - 1.4756929437702908 * eta + 7.304676214885011 * (eta * eta)) * u) - eta * (0.055974469826360077 + 0.5809510763115132 * eta - 0.9606726679372312 * (eta * eta) + 3.352411249771192 * (eta * eta * eta)) * (1 + ((-0.0030302335878845507) - 2.0066110851351073 * eta + 7.7050567802399215 * (eta * eta)) * u) := by
    have key : 0.12 * (1 + ((-0.6714403054720589) - 1.4756929437702908 * eta + 7.304676214885011 * (eta * eta)) * u) - eta * (0.055974469826360077 + 0.5809510763115132 * eta - 0.9606726679372312 * (eta * eta) + 3.352411249771192 * (eta * eta * eta)) * (1 + ((-0.0030302335878845507) - 2.0066110851351073 * eta + 7.7050567802399215 * (eta * eta)) * u) =
      50143209164161767 / 122070312500000 * b ^ 6 * w + 9856790835838233 / 122070312500000 * b ^ 6 * t + 49346871474670725843802516581164375961 / 19531250000000000000000000000000000 * eta * b ^ 5 * w
       + 7133639128802072616197483418835624039 / 19531250000000000000000000000000000 * eta * b ^ 5 * t + 24492335260272974652176778843839185291 / 3906250000000000000000000000000000 * eta ^ 2 * b ^ 4 * w
       + 2607224266888310607823221156160814709 / 3906250000000000000000000000000000 * eta ^ 2 * b ^ 4 * t + 62791785745910619062415957341471382819 / 7812500000000000000000000000000000 * eta ^ 3 * b ^ 3 * w
       + 5362984391457084777584042658528617181 / 7812500000000000000000000000000000 * eta ^ 3 * b ^ 3 * t + 43907425941496907181215987092026311659 / 7812500000000000000000000000000000 * eta ^ 4 * b ^ 2 * w
       + 3265161152340576058784012907973688341 / 7812500000000000000000000000000000 * eta ^ 4 * b ^ 2 * t + 15718660112307992315605837720144261517 / 7812500000000000000000000000000000 * eta ^ 5 * b * w
       + 1037658673608547804394162279855738483 / 7812500000000000000000000000000000 * eta ^ 5 * b * t + 5622082661248547853995092862518226511 / 19531250000000000000000000000000000 * eta ^ 6 * w
       + 106884880034726106004907137481773489 / 19531250000000000000000000000000000 * eta ^ 6 * t := by
      rw [hb, ht, hw]; ring
    rw [key]; positivity
  unfold eradOf
  refine ⟨div_nonneg npos dpos.le, ?_⟩
  rw [div_le_iff₀ dpos]
  linarith

end Verif.PhenomD
