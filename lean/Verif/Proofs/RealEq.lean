import Verif.Model.RealEq
import Verif.Proofs.Real
/-! # Comparison of REALs -/
namespace FastBer
open Spec

theorem ofBits_spec (d : UInt64) : Dbl.ofBits d = match doubleVal d with
    | .finite s m e => .fin (RealVal.units (.finite s m e))
    | .inf s => .inf s
    | .nan => .nan := by
  have hlt := d.toNat_lt
  have hs : (signBit d == 1) = decide (2 ^ 63 ≤ d.toNat) := by
    unfold signBit
    by_cases h : 2 ^ 63 ≤ d.toNat
    · have : d.toNat / 2 ^ 63 = 1 := by omega
      simp only [this, h]; rfl
    · have : d.toNat / 2 ^ 63 = 0 := by omega
      simp only [this, h]; rfl
  unfold Dbl.ofBits doubleVal expField fraction
  simp only [hs]
  by_cases h1 : d.toNat / 2 ^ 52 % 2 ^ 11 = 2047
  · rw [if_pos h1, if_pos h1]
    by_cases h2 : d.toNat % 2 ^ 52 = 0
    · rw [if_pos h2, if_pos h2]
    · rw [if_neg h2, if_neg h2]
  · rw [if_neg h1, if_neg h1]
    by_cases h2 : d.toNat / 2 ^ 52 % 2 ^ 11 = 0
    · rw [if_pos h2, if_pos h2]
      simp only [RealVal.units, decide_eq_true_eq]
      split <;> simp
    · rw [if_neg h2, if_neg h2]
      have he : ((d.toNat / 2 ^ 52 % 2 ^ 11 : Nat) - 1075 + 1074 : Int).toNat = d.toNat / 2 ^ 52 % 2 ^ 11 - 1 := by omega
      simp only [RealVal.units, decide_eq_true_eq, he]
      split <;> simp

theorem roundShift_le {n k c : Nat} (h : n ≤ c * 2 ^ k) : roundShift n k ≤ c := by
  have hp : 0 < 2 ^ k := Nat.two_pow_pos k
  have hq : n / 2 ^ k ≤ c := (Nat.div_le_iff_le_mul_add_pred hp).2 (by rw [Nat.mul_comm]; omega)
  unfold roundShift
  split
  · rename_i hr
    have hd := Nat.div_add_mod n (2 ^ k)
    have h2 : n % 2 ^ k ≠ 0 := by rcases hr with hr | ⟨hr, _⟩ <;> omega
    rcases Nat.lt_or_ge (n / 2 ^ k) c with h3 | h3
    · omega
    · have : n / 2 ^ k = c := by omega
      rw [this, Nat.mul_comm] at hd
      omega
  · exact hq

theorem roundShift_ge (n k : Nat) : n / 2 ^ k ≤ roundShift n k := by unfold roundShift; split <;> omega

theorem roundShift_up (n k : Nat) : 2 * (roundShift n k * 2 ^ k) ≤ 2 * n + 2 ^ k := by
  have hd := Nat.div_add_mod n (2 ^ k)
  rw [Nat.mul_comm] at hd
  unfold roundShift
  split
  · rename_i h
    rw [Nat.add_mul, Nat.one_mul]
    rcases h with h | h <;> omega
  · omega

theorem roundTo53_small {n : Nat} (h : n < 2 ^ 53) : roundTo53 n = n := by
  have : n.log2 - 52 = 0 := by
    by_cases h0 : n = 0
    · subst h0; rfl
    · have := (Nat.log2_lt h0).2 h
      omega
  simp [roundTo53, this, roundShift, Nat.mod_one]

theorem roundTo53_le {n t : Nat} (h : n ≤ 2 ^ t) : roundTo53 n ≤ 2 ^ t := by
  by_cases h0 : n = 0
  · subst h0; exact Nat.zero_le _
  · have hk : n.log2 - 52 ≤ t := by
      have h1 := Nat.log2_self_le h0
      have : n.log2 ≤ t := (Nat.pow_le_pow_iff_right (by omega)).1 (Nat.le_trans h1 h)
      omega
    have he : 2 ^ t = 2 ^ (t - (n.log2 - 52)) * 2 ^ (n.log2 - 52) := by rw [← Nat.pow_add]; congr 1; omega
    rw [roundTo53]
    rw [he] at h ⊢
    exact Nat.mul_le_mul_right _ (roundShift_le h)

theorem roundTo53_ge_aux {n a q r z K : Nat} (h1 : a * K ≤ n) (h3 : q ≤ z) (hd : q + r = n) (hm : r < a) :
    n * K ≤ z * K + n := by
  have h4 : r * K ≤ a * K := Nat.mul_le_mul_right K (by omega)
  have h5 : q * K ≤ z * K := Nat.mul_le_mul_right K h3
  have h6 : n * K = q * K + r * K := by rw [← hd, Nat.add_mul]
  omega

theorem roundTo53_ge (n : Nat) : n * 2 ^ 52 ≤ roundTo53 n * 2 ^ 52 + n := by
  by_cases hs : n < 2 ^ 53
  · rw [roundTo53_small hs]; omega
  · have h0 : n ≠ 0 := by omega
    have h1 := Nat.log2_self_le h0
    have hge : 53 ≤ n.log2 := (Nat.le_log2 h0).2 (by omega)
    have he : 2 ^ n.log2 = 2 ^ (n.log2 - 52) * 2 ^ 52 := by rw [← Nat.pow_add]; congr 1; omega
    have h2 := roundShift_ge n (n.log2 - 52)
    have hd := Nat.div_add_mod n (2 ^ (n.log2 - 52))
    have hm := Nat.mod_lt n (Nat.two_pow_pos (n.log2 - 52))
    have h3 : n / 2 ^ (n.log2 - 52) * 2 ^ (n.log2 - 52) ≤ roundTo53 n := Nat.mul_le_mul_right _ h2
    rw [Nat.mul_comm] at hd
    rw [he] at h1
    exact roundTo53_ge_aux h1 h3 hd hm

theorem distance_comm (a b : Dbl) : a.distance b = b.distance a := by
  cases a with
  | nan => cases b <;> rfl
  | inf s => cases b with
    | nan => rfl
    | inf t => cases s <;> cases t <;> rfl
    | fin y => rfl
  | fin x => cases b with
    | nan => rfl
    | inf t => rfl
    | fin y =>
      unfold Dbl.distance
      simp only
      rw [show (x - y).natAbs = (y - x).natAbs by omega]

theorem abs_max (x y : Int) : (Dbl.fin x).abs.max (Dbl.fin y).abs = .fin (Max.max x.natAbs y.natAbs : Nat) := by
  unfold Dbl.max Dbl.abs Dbl.lt
  simp only [decide_eq_true_eq]
  split
  · rw [Nat.max_eq_right (by omega)]
  · rw [Nat.max_eq_left (by omega)]

theorem max_comm {a b : Dbl} (ha : a ≠ .nan) (hb : b ≠ .nan) : a.abs.max b.abs = b.abs.max a.abs := by
  cases a with
  | nan => exact absurd rfl ha
  | inf s => cases b with
    | nan => exact absurd rfl hb
    | inf t => rfl
    | fin y => rfl
  | fin x => cases b with
    | nan => exact absurd rfl hb
    | inf t => rfl
    | fin y => rw [abs_max, abs_max, Nat.max_comm]

theorem equal_comm (a b : Dbl) : a.equal b = b.equal a := by
  cases a with
  | nan => cases b <;> rfl
  | inf s => cases b with
    | nan => rfl
    | inf t => cases s <;> cases t <;> rfl
    | fin y => unfold Dbl.equal; simp only; rw [distance_comm, max_comm (by simp) (by simp)]
  | fin x => cases b with
    | nan => rfl
    | inf t => unfold Dbl.equal; simp only; rw [distance_comm, max_comm (by simp) (by simp)]
    | fin y => unfold Dbl.equal; simp only; rw [distance_comm, max_comm (by simp) (by simp)]

theorem equal_near {x y : Int} (h : (x - y).natAbs ≤ 2 ^ 1022) : (Dbl.fin x).equal (.fin y) = true := by
  have h1 := roundTo53_le h
  have h2 : ¬ 2 ^ 2098 ≤ roundTo53 (x - y).natAbs := by
    have : (2 : Nat) ^ 1022 < 2 ^ 2098 := Nat.pow_lt_pow_right (by omega) (by omega)
    omega
  simp only [Dbl.equal, Dbl.distance, if_neg h2, Dbl.le, Dbl.lt, Bool.or_eq_true]
  left
  simp only [Bool.not_eq_true', decide_eq_false_iff_not, Int.not_lt]
  exact_mod_cast h1

/-- The absolute test of `==` (2^-52 is 2^1022 units): half a unit in the last place is lost to rounding. -/
theorem roundTo53_abs {n : Nat} : roundTo53 n ≤ 2 ^ 1022 ↔ n ≤ 2 ^ 1022 + 2 ^ 969 := by
  have hA : (2 : Nat) ^ 1022 = 2 ^ 52 * 2 ^ 970 := by rw [← Nat.pow_add]
  have hB : (2 : Nat) ^ 970 = 2 * 2 ^ 969 := by rw [Nat.mul_comm, ← Nat.pow_succ]
  have hC : 0 < (2 : Nat) ^ 969 := Nat.two_pow_pos _
  by_cases h1 : n ≤ 2 ^ 1022
  · exact ⟨fun _ => by generalize (2 : Nat) ^ 1022 = A at *; omega, fun _ => roundTo53_le h1⟩
  by_cases h2 : n < 2 ^ 1023
  · have h0 : n ≠ 0 := by rintro rfl; exact h1 (Nat.zero_le _)
    have hl : n.log2 - 52 = 970 := by
      have a := (Nat.log2_lt h0).2 h2
      have b := (Nat.le_log2 h0).2 (by generalize (2 : Nat) ^ 1022 = A at *; omega : 2 ^ 1022 ≤ n)
      omega
    rw [roundTo53, hl, roundShift]
    have hd := Nat.div_add_mod n (2 ^ 970)
    have hm := Nat.mod_lt n (Nat.two_pow_pos 970)
    have hq : 2 ^ 52 ≤ n / 2 ^ 970 := (Nat.le_div_iff_mul_le (Nat.two_pow_pos 970)).2 (by rw [← hA]; generalize (2 : Nat) ^ 1022 = A at *; omega)
    have hfix : 2 ^ 52 % 2 = 0 := by decide
    generalize (2 : Nat) ^ 1022 = A at *
    generalize (2 : Nat) ^ 970 = B at *
    generalize (2 : Nat) ^ 969 = C at *
    generalize (2 : Nat) ^ 52 = D at *
    generalize n / B = q at *
    generalize n % B = r at *
    subst hA
    have hBpos : 0 < B := by omega
    have key : ∀ x, x * B ≤ D * B ↔ x ≤ D := fun x => ⟨fun h => Nat.le_of_mul_le_mul_right h hBpos, Nat.mul_le_mul_right B⟩
    rw [key]
    rw [Nat.mul_comm] at hd
    rcases Nat.lt_or_ge D q with h3 | h3
    · have := Nat.mul_le_mul_right B h3
      rw [Nat.succ_mul] at this
      constructor
      · intro h; split at h <;> omega
      · intro h; omega
    · have : q = D := by omega
      subst this
      constructor
      · intro h
        split at h
        · omega
        · omega
      · intro h
        split <;> omega
  · have hg := roundTo53_ge n
    have hD : (2 : Nat) ^ 1023 = 2 * 2 ^ 1022 := by rw [Nat.mul_comm, ← Nat.pow_succ]
    generalize (2 : Nat) ^ 1023 = E at *
    generalize (2 : Nat) ^ 1022 = A at *
    generalize (2 : Nat) ^ 970 = B at *
    generalize (2 : Nat) ^ 969 = C at *
    generalize roundTo53 n = z at *
    constructor <;> intro h <;> omega

/-- `n` has at most 53 significant bits. -/
def Fits53 (n : Nat) : Prop := ∃ m k, m < 2 ^ 53 ∧ n = m * 2 ^ k

theorem Fits53.dvd {n t : Nat} (h : Fits53 n) (ht : 2 ^ t ≤ n) : 2 ^ (t - 52) ∣ n := by
  obtain ⟨m, k, hm, rfl⟩ := h
  have : t < 53 + k := by
    refine (Nat.pow_lt_pow_iff_right (a := 2) (by omega)).1 ?_
    rw [Nat.pow_add]
    exact Nat.lt_of_le_of_lt ht (Nat.mul_lt_mul_of_pos_right hm (Nat.two_pow_pos k))
  exact Nat.dvd_mul_left_of_dvd (Nat.pow_dvd_pow 2 (by omega)) m

/-- Numbers with few significant bits are not changed by rounding. -/
theorem roundTo53_fixed {n : Nat} (h : 2 ^ (n.log2 - 52) ∣ n) : roundTo53 n = n := by
  obtain ⟨c, hc⟩ := h
  have hp := Nat.two_pow_pos (n.log2 - 52)
  have h1 : n % 2 ^ (n.log2 - 52) = 0 := by
    generalize 2 ^ (n.log2 - 52) = a at *
    rw [hc]; exact Nat.mul_mod_right a c
  have h2 : n / 2 ^ (n.log2 - 52) * 2 ^ (n.log2 - 52) = n := Nat.div_mul_cancel ⟨c, hc⟩
  rw [roundTo53, roundShift, h1, if_neg (by generalize 2 ^ (n.log2 - 52) = a at *; omega), h2]

theorem Fits53.fixed {n : Nat} (h : Fits53 n) : roundTo53 n = n := by
  by_cases h0 : n = 0
  · subst h0; rfl
  · exact roundTo53_fixed (h.dvd (Nat.log2_self_le h0))

theorem roundShift_exact {n k : Nat} (h : 2 ^ k ∣ n) : roundShift n k = n / 2 ^ k := by
  have h1 : n % 2 ^ k = 0 := Nat.mod_eq_zero_of_dvd h
  have hp := Nat.two_pow_pos k
  rw [roundShift, h1, if_neg (by omega)]

theorem pow_split {a b c : Nat} (h : a = b + c) : 2 ^ a = 2 ^ b * 2 ^ c := by rw [h, Nat.pow_add]

theorem pow_double {a b : Nat} (h : a = b + 1) : 2 ^ a = 2 * 2 ^ b := by rw [h, Nat.pow_succ, Nat.mul_comm]

/-- The two tests of `==`, exactly. -/
theorem tests_exact {x y : Int} (hx : Fits53 x.natAbs) (hy : Fits53 y.natAbs) :
    (roundTo53 (x - y).natAbs ≤ 2 ^ 1022 ∨ roundTo53 (x - y).natAbs ≤ roundShift (max x.natAbs y.natAbs) 52) ↔
      ((x - y).natAbs ≤ 2 ^ 1022 + 2 ^ 969 ∨ (x - y).natAbs * 2 ^ 52 ≤ max x.natAbs y.natAbs) := by
  rw [roundTo53_abs]
  have hE : (2 : Nat) ^ 1074 = 2 ^ 1022 * 2 ^ 52 := by rw [← Nat.pow_add]
  generalize hM : max x.natAbs y.natAbs = M
  generalize hn : (x - y).natAbs = n
  by_cases hsmall : M < 2 ^ 1074
  · have h1 : roundShift M 52 ≤ 2 ^ 1022 := roundShift_le (by rw [← hE]; exact Nat.le_of_lt hsmall)
    constructor
    · rintro (h | h)
      · exact .inl h
      · exact .inl (roundTo53_abs.1 (Nat.le_trans h h1))
    · rintro (h | h)
      · exact .inl h
      · left
        rw [hE] at hsmall
        have := Nat.lt_of_mul_lt_mul_right (Nat.lt_of_le_of_lt h hsmall)
        generalize (2 : Nat) ^ 1022 = A at *
        generalize (2 : Nat) ^ 969 = C at *
        omega
  · have hbig : 2 ^ 1074 ≤ M := Nat.le_of_not_lt hsmall
    have h0 : M ≠ 0 := by rintro rfl; exact absurd hbig (Nat.not_le_of_lt (Nat.two_pow_pos _))
    have hMfit : Fits53 M := by
      rw [← hM]
      rcases Nat.le_total x.natAbs y.natAbs with h | h
      · rwa [Nat.max_eq_right h]
      · rwa [Nat.max_eq_left h]
    have hL := Nat.log2_self_le h0
    have hL' : 1074 ≤ M.log2 := (Nat.le_log2 h0).2 hbig
    have hU := Nat.lt_log2_self (n := M)
    have hdvd := hMfit.dvd hL
    have hdvd52 : 2 ^ 52 ∣ M := Nat.dvd_trans (Nat.pow_dvd_pow 2 (by omega)) hdvd
    rw [roundShift_exact hdvd52]
    have hq : M / 2 ^ 52 * 2 ^ 52 = M := Nat.div_mul_cancel hdvd52
    have hle : n ≤ M / 2 ^ 52 ↔ n * 2 ^ 52 ≤ M := Nat.le_div_iff_mul_le (by decide)
    rw [← hle]
    suffices h : roundTo53 n ≤ M / 2 ^ 52 ↔ n ≤ M / 2 ^ 52 by rw [h]
    -- both sides force the subtraction to be exact
    have exact : n ≤ 2 * (M / 2 ^ 52) → roundTo53 n = n := by
      intro hn2
      by_cases hn0 : n = 0
      · subst hn0; rfl
      have hdn : 2 ^ (M.log2 - 53) ∣ n := by
        have hd1 : 2 ^ (M.log2 - 53) ∣ x.natAbs ∧ 2 ^ (M.log2 - 53) ∣ y.natAbs := by
          have hge : ∀ z : Int, Fits53 z.natAbs → M ≤ z.natAbs + n → 2 ^ (M.log2 - 53) ∣ z.natAbs := by
            intro z hz hzn
            have hp : (2 : Nat) ^ M.log2 = 2 * 2 ^ (M.log2 - 1) := by
              exact pow_double (by omega)
            have : 2 ^ (M.log2 - 1) ≤ z.natAbs := by
              generalize (2 : Nat) ^ (M.log2 - 1) = P at *
              generalize (2 : Nat) ^ M.log2 = Q at *
              omega
            have := hz.dvd this
            rwa [show M.log2 - 1 - 52 = M.log2 - 53 by omega] at this
          exact ⟨hge x hx (by omega), hge y hy (by omega)⟩
        rw [← hn]
        have a : ((2 ^ (M.log2 - 53) : Nat) : Int) ∣ x := Int.ofNat_dvd_left.2 hd1.1
        have b : ((2 ^ (M.log2 - 53) : Nat) : Int) ∣ y := Int.ofNat_dvd_left.2 hd1.2
        exact Int.ofNat_dvd_left.1 (Int.dvd_sub a b)
      refine roundTo53_fixed (Nat.dvd_trans (Nat.pow_dvd_pow 2 ?_) hdn)
      have : n.log2 < M.log2 - 49 := by
        refine (Nat.log2_lt hn0).2 ?_
        have hp : 2 ^ (M.log2 + 1) = 2 ^ (M.log2 - 50) * 2 ^ 51 := pow_split (by omega)
        have hp2 : 2 ^ (M.log2 - 49) = 2 * 2 ^ (M.log2 - 50) := pow_double (by omega)
        rw [hp2]
        rw [hp] at hU
        generalize (2 : Nat) ^ (M.log2 - 50) = P at *
        clear hp hp2 hdvd hL hdn hle hbig hE hsmall
        omega
      omega
    constructor
    · intro h
      have hg := roundTo53_ge n
      have := exact (by
        generalize roundTo53 n = z at *
        clear hbig hE hsmall hL hU hdvd hq hle exact
        generalize M / 2 ^ 52 = q at *
        omega)
      rwa [this] at h
    · intro h
      rwa [exact (by omega)]

/-- The difference of two numbers close to each other has few significant bits. -/
theorem difference_dvd {x y : Int} {t : Nat} (hx : Fits53 x.natAbs) (hy : Fits53 y.natAbs)
    (h : 2 ^ (t + 1) ≤ max x.natAbs y.natAbs) (hn : (x - y).natAbs ≤ 2 ^ t) : 2 ^ (t - 52) ∣ (x - y).natAbs := by
  have hp : (2 : Nat) ^ (t + 1) = 2 * 2 ^ t := pow_double rfl
  have h1 : 2 ^ t ≤ x.natAbs ∧ 2 ^ t ≤ y.natAbs := by
    generalize (2 : Nat) ^ (t + 1) = P at *
    generalize (2 : Nat) ^ t = Q at *
    omega
  exact Int.ofNat_dvd_left.1 (Int.dvd_sub (Int.ofNat_dvd_left.2 (hx.dvd h1.1)) (Int.ofNat_dvd_left.2 (hy.dvd h1.2)))

theorem near_one {x y : Int} (hx : Fits53 x.natAbs) (hy : Fits53 y.natAbs) (h : 2 ^ 1074 ≤ max x.natAbs y.natAbs)
    (hn : (x - y).natAbs ≤ 2 ^ 1022 + 2 ^ 969) : (x - y).natAbs * 2 ^ 52 ≤ max x.natAbs y.natAbs := by
  have hA : (2 : Nat) ^ 1022 = 2 * 2 ^ 1021 := pow_double rfl
  have hB : (2 : Nat) ^ 1074 = 2 ^ 1022 * 2 ^ 52 := pow_split rfl
  have hC : (2 : Nat) ^ 969 < 2 ^ 1021 := Nat.pow_lt_pow_right (by omega) (by omega)
  have hD : (2 : Nat) ^ 1021 * 3 ≤ 2 ^ 1073 := by
    rw [show (2 : Nat) ^ 1073 = 2 ^ 1021 * 2 ^ 52 from pow_split rfl]
    exact Nat.mul_le_mul_left _ (by decide)
  obtain ⟨c, hc⟩ := difference_dvd (t := 1073) hx hy h (by
    generalize (2 : Nat) ^ 1022 = P at *
    generalize (2 : Nat) ^ 1021 = Q at *
    generalize (2 : Nat) ^ 1073 = R at *
    generalize (2 : Nat) ^ 969 = S at *
    omega)
  rw [show 1073 - 52 = 1021 from rfl] at hc
  have : c ≤ 2 := by
    rw [hc, hA] at hn
    have : 2 ^ 1021 * c < 2 ^ 1021 * 3 := by
      generalize (2 : Nat) ^ 1021 = Q at *
      generalize (2 : Nat) ^ 969 = S at *
      omega
    have := Nat.lt_of_mul_lt_mul_left this
    omega
  have h2 : (x - y).natAbs ≤ 2 ^ 1022 := by
    rw [hc, hA, Nat.mul_comm 2]
    exact Nat.mul_le_mul_left _ this
  refine Nat.le_trans (Nat.mul_le_mul_right _ h2) ?_
  rw [← hB]; exact h

/-- Finite doubles have 53 significant bits. -/
theorem fits53_of_val {d : UInt64} {s : Bool} {m : Nat} {k : Int} (h : doubleVal d = .finite s m k) :
    Fits53 (RealVal.units (.finite s m k)).natAbs := by
  refine ⟨m, (k + 1074).toNat, ?_, ?_⟩
  · have := fraction_lt d
    unfold doubleVal at h
    split at h
    · split at h <;> cases h
    · split at h <;> (simp only [RealVal.finite.injEq] at h; omega)
  · simp only [RealVal.units, Int.natAbs_mul, Int.natAbs_natCast]
    cases s <;> simp

theorem equal_iff {x y : Int} (hx : Fits53 x.natAbs) (hy : Fits53 y.natAbs) (hx' : x.natAbs < 2 ^ 2098) (hy' : y.natAbs < 2 ^ 2098) :
    (Dbl.fin x).equal (.fin y) = true ↔
      ((x - y).natAbs ≤ 2 ^ 1022 + 2 ^ 969 ∨ (x - y).natAbs * 2 ^ 52 ≤ max x.natAbs y.natAbs) := by
  rw [← tests_exact hx hy]
  unfold Dbl.equal
  simp only [Bool.or_eq_true, abs_max, Dbl.timesEpsilon, Int.natAbs_natCast]
  have hM : roundShift (max x.natAbs y.natAbs) 52 < 2 ^ 2098 := by
    have := roundShift_up (max x.natAbs y.natAbs) 52
    have h1 : max x.natAbs y.natAbs < 2 ^ 2098 := Nat.max_lt.2 ⟨hx', hy'⟩
    have h2 : 2 ^ 52 < 2 ^ 2098 := Nat.pow_lt_pow_right (by omega) (by omega)
    generalize (2 : Nat) ^ 2098 = A at *
    omega
  have hA : (2 : Nat) ^ 1022 < 2 ^ 2098 := Nat.pow_lt_pow_right (by omega) (by omega)
  unfold Dbl.distance
  simp only
  split
  · rename_i h
    constructor
    · rintro (h1 | h1) <;> cases h1
    · intro h1
      generalize (2 : Nat) ^ 2098 = A at *
      generalize (2 : Nat) ^ 1022 = B at *
      omega
  · unfold Dbl.le Dbl.lt
    simp only [Bool.not_eq_true', decide_eq_false_iff_not, Int.not_lt]
    have c : ((2 : Int) ^ 1022) = ((2 ^ 1022 : Nat) : Int) := by rw [Int.natCast_pow]; rfl
    rw [c, Int.ofNat_le, Int.ofNat_le]

end FastBer
