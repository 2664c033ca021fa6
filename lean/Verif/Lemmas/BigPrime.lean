import Verif.Model.BigPrime
import Verif.Spec.BigPrime
import Verif.Lemmas.BigMath
/-! Lemmas on the primality test of big integers. -/
namespace Verif.BigJs
open Spec

theorem little_ok {v : Int} (h0 : 0 ≤ v) (h1 : v ≤ 100) : (Big.ofSmall v).Ok := by
  have hM : (MAX_INT : Int) = 9007199254740992 := rfl
  exact ofSmall_ok (by omega) (by omega)

/-- What `isBasicPrime` gives. -/
theorem isBasicPrime_eq {fl : Rat → Rat} (hfl : Rounding fl) {v : Big} (h : v.Ok) {n : Nat} (hn : v.toInt.natAbs = n) :
    isBasicPrime fl v = .ok (if n = 1 then some false else if n = 2 ∨ n = 3 ∨ n = 5 then some true
      else if n % 2 = 0 then some false else if n % 3 = 0 then some false else if n % 5 = 0 then some false
      else if n < 25 then some true else none) := by
  obtain ⟨a1, a2⟩ := abs_ok h
  rw [hn] at a2
  have ok2 := little_ok (v := 2) (by decide) (by decide)
  have ok3 := little_ok (v := 3) (by decide) (by decide)
  have ok5 := little_ok (v := 5) (by decide) (by decide)
  have ok25 := little_ok (v := 25) (by decide) (by decide)
  have hu := isUnit_eq a1
  have he := isEven_eq a1
  have h2 : v.abs.equals (.ofSmall 2) = decide (n = 2) := by
    rw [equals_eq a1 ok2]
    exact decide_eq_decide.mpr (by rw [a2, toInt_ofSmall]; omega)
  have h3 : v.abs.equals (.ofSmall 3) = decide (n = 3) := by
    rw [equals_eq a1 ok3]
    exact decide_eq_decide.mpr (by rw [a2, toInt_ofSmall]; omega)
  have h5 : v.abs.equals (.ofSmall 5) = decide (n = 5) := by
    rw [equals_eq a1 ok5]
    exact decide_eq_decide.mpr (by rw [a2, toInt_ofSmall]; omega)
  have h25 : v.abs.lesser (.ofSmall 25) = decide (n < 25) := by
    rw [lesser_eq a1 ok25]
    exact decide_eq_decide.mpr (by rw [a2, toInt_ofSmall]; omega)
  have d3 : v.abs.isDivisibleBy fl (.ofSmall 3) = .ok (decide (n % 3 = 0)) := by
    rw [isDivisibleBy_ok hfl a1 ok3]
    exact congrArg _ (decide_eq_decide.mpr (by rw [a2, toInt_ofSmall]; omega))
  have d5 : v.abs.isDivisibleBy fl (.ofSmall 5) = .ok (decide (n % 5 = 0)) := by
    rw [isDivisibleBy_ok hfl a1 ok5]
    exact congrArg _ (decide_eq_decide.mpr (by rw [a2, toInt_ofSmall]; omega))
  rw [a2] at hu he
  simp only [Int.natAbs_natCast] at hu he
  unfold isBasicPrime
  dsimp only
  generalize v.abs.isUnit = u at hu ⊢
  generalize v.abs.isEven = e at he ⊢
  generalize v.abs.equals (.ofSmall 2) = e2 at h2 ⊢
  generalize v.abs.equals (.ofSmall 3) = e3 at h3 ⊢
  generalize v.abs.equals (.ofSmall 5) = e5 at h5 ⊢
  generalize v.abs.lesser (.ofSmall 25) = l at h25 ⊢
  rw [d3, d5]
  subst hu he h2 h3 h5 h25
  by_cases c1 : n = 1
  · simp [c1]
  by_cases c2 : n = 2 ∨ n = 3 ∨ n = 5
  · rw [if_neg (by simpa using c1), if_pos (by simp; omega), if_neg c1, if_pos c2]
  rw [if_neg (by simpa using c1), if_neg (by simp; omega), if_neg c1, if_neg c2]
  by_cases c3 : n % 2 = 0
  · rw [if_pos (by simp; omega), if_pos c3]
  rw [if_neg (by simp; omega), if_neg c3]
  show (if decide _ = true then _ else _) = _
  by_cases c4 : n % 3 = 0
  · rw [if_pos (by simp; omega), if_pos c4]
  rw [if_neg (by simp; omega), if_neg c4]
  show (if decide _ = true then _ else _) = _
  by_cases c5 : n % 5 = 0
  · rw [if_pos (by simp; omega), if_pos c5]
  rw [if_neg (by simp; omega), if_neg c5]
  by_cases c6 : n < 25
  · rw [if_pos (by simp; omega), if_pos c6]
  · rw [if_neg (by simp; omega), if_neg c6]

theorem isBasicPrime_ok {fl : Rat → Rat} (hfl : Rounding fl) {v : Big} (h : v.Ok) {n : Nat} (hn : v.toInt.natAbs = n) :
    ∃ r, isBasicPrime fl v = .ok r ∧ (r = some true → Passes n) ∧ (r = some false → ¬ Passes n) ∧
      (r = none → n ≠ 1 ∧ ¬ 2 ∣ n ∧ ¬ 3 ∣ n ∧ ¬ 5 ∣ n ∧ 25 ≤ n) := by
  refine ⟨_, isBasicPrime_eq hfl h hn, ?_⟩
  unfold Passes
  repeat' split
  all_goals
    refine ⟨?_, ?_, ?_⟩ <;> intro h <;> first
      | (cases h; done)
      | omega
      | exact .inr (.inr (.inr ⟨by omega, by omega, by omega, by omega, .inl (by omega)⟩))

theorem oddPart_ok {fl : Rat → Rat} (hfl : Rounding fl) (fuel : Nat) : ∀ {b : Big} {n : Nat}, b.Ok → b.toInt = n →
    0 < n → n < fuel → ∃ r s m, oddPart fl fuel b = .ok r ∧ r.Ok ∧ r.toInt = (m : Nat) ∧ n = 2 ^ s * m ∧ m % 2 = 1 := by
  have ok2 := little_ok (v := 2) (by decide) (by decide)
  induction fuel with
  | zero => intro b n _ _ _ h; omega
  | succ fuel ih =>
    intro b n hb hn h0 hlt
    rw [oddPart, isEven_eq hb, hn]
    by_cases he : (n : Int) % 2 = 0
    · rw [if_pos (by simpa using he)]
      obtain ⟨q, r, j1, j2, _, j4, _⟩ := divmod_ok hfl hb ok2 (by rw [toInt_ofSmall]; decide)
      rw [j1]
      have hq : q.toInt = (n / 2 : Nat) := by
        rw [j4, hn, toInt_ofSmall, Int.tdiv_eq_ediv_of_nonneg (by omega)]
        omega
      obtain ⟨r', s, m, k1, k2, k3, k4, k5⟩ := ih j2 hq (by omega) (by omega)
      refine ⟨r', s + 1, m, k1, k2, k3, ?_, k5⟩
      rw [Nat.pow_succ, Nat.mul_right_comm, ← k4]
      omega
    · rw [if_neg (by simpa using he)]
      exact ⟨b, 0, n, rfl, hb, hn, by simp, by omega⟩

theorem tmod_cast (a b : Nat) : (a : Int).tmod b = (a % b : Nat) := by
  rw [Int.tmod_eq_emod_of_nonneg (by omega)]
  rfl

theorem squareLoop_ok {fl : Rat → Rat} (hfl : Rounding fl) {n nPrev : Big} {N : Nat} (hn : n.Ok) (hN : n.toInt = N)
    (hp : nPrev.Ok) (hP : nPrev.toInt = (N - 1 : Nat)) (hN1 : 1 < N) (fuel : Nat) :
    ∀ {x d : Big} {X D k : Nat}, x.Ok → x.toInt = X → d.Ok → d.toInt = D → N - 1 = 2 ^ k * D → 0 < D → k < fuel →
      ∃ t, squareLoop fl n nPrev fuel x d = .ok t ∧
        (t = false ↔ ∃ r, 1 ≤ r ∧ r ≤ k ∧ X ^ 2 ^ r % N = N - 1) := by
  have ok2 := little_ok (v := 2) (by decide) (by decide)
  induction fuel with
  | zero => intro x d X D k _ _ _ _ _ _ h; omega
  | succ fuel ih =>
    intro x d X D k hx hX hd hD hk hD0 hlt
    rw [squareLoop, lesser_eq hd hp, hD, hP]
    cases k with
    | zero =>
      rw [if_neg (by simp; omega)]
      exact ⟨true, rfl, nofun, fun ⟨r, h1, h2, _⟩ => by omega⟩
    | succ k =>
      have hk' : N - 1 = 2 ^ k * (D * 2) := by rw [hk, Nat.pow_succ, Nat.mul_assoc, Nat.mul_comm 2 D]
      have h1 : 1 ≤ 2 ^ k := Nat.one_le_two_pow
      have hlt2 : D < N - 1 := by
        have := Nat.mul_le_mul_right (D * 2) h1
        omega
      rw [if_pos (by simp; omega)]
      obtain ⟨y, y1, y2, y3⟩ := square_ok hx
      rw [y1]
      obtain ⟨q, r, j1, _, j3, _, j5⟩ := divmod_ok hfl y2 hn (by omega)
      show ∃ t, (y.divmod fl n >>= _) = _ ∧ _
      rw [j1]
      show ∃ t, (if r.equals nPrev = true then _ else _) = _ ∧ _
      have hr : r.toInt = (X * X % N : Nat) := by
        rw [j5, y3, hX, hN, ← Int.natCast_mul, tmod_cast]
      have hpow : ∀ j, (X * X % N) ^ 2 ^ j % N = X ^ 2 ^ (j + 1) % N := by
        intro j
        rw [← Nat.pow_mod, show 2 ^ (j + 1) = 2 * 2 ^ j by rw [Nat.pow_succ, Nat.mul_comm], Nat.pow_mul, Nat.pow_two]
      rw [equals_eq j3 hp, hr, hP]
      by_cases he : X * X % N = N - 1
      · rw [if_pos (by rw [he]; simp)]
        refine ⟨false, rfl, fun _ => ⟨1, by omega, by omega, ?_⟩, fun _ => rfl⟩
        rw [Nat.pow_one, Nat.pow_two, he]
      · rw [if_neg (by simp only [decide_eq_true_eq]; omega)]
        obtain ⟨d', d1, d2, d3⟩ := multiply_ok hd ok2
        rw [d1]
        obtain ⟨t, t1, t2⟩ := ih (D := D * 2) (k := k) j3 hr d2 (by rw [d3, hD, toInt_ofSmall]; omega) hk' (by omega) (by omega)
        refine ⟨t, t1, t2.trans ⟨?_, ?_⟩⟩
        · rintro ⟨r, h1, h2, h3⟩
          exact ⟨r + 1, by omega, by omega, by rw [← hpow]; exact h3⟩
        · rintro ⟨r, h1, h2, h3⟩
          cases r with
          | zero => omega
          | succ r =>
            rw [← hpow] at h3
            refine ⟨r, ?_, by omega, h3⟩
            refine Nat.pos_of_ne_zero fun h0 => he ?_
            subst h0
            rw [Nat.pow_zero, Nat.pow_one, Nat.mod_mod] at h3
            exact h3

/-- The decomposition into a power of two and an odd number is unique. -/
theorem odd_unique : ∀ {s t a b : Nat}, 2 ^ s * a = 2 ^ t * b → a % 2 = 1 → b % 2 = 1 → s = t ∧ a = b
  | 0, 0, a, b, h, _, _ => by simpa using h
  | s + 1, 0, a, b, h, _, hb => by
    rw [Nat.pow_succ, Nat.pow_zero, Nat.mul_right_comm] at h
    omega
  | 0, t + 1, a, b, h, ha, _ => by
    rw [Nat.pow_succ, Nat.pow_zero, Nat.mul_right_comm] at h
    omega
  | s + 1, t + 1, a, b, h, ha, hb => by
    rw [Nat.pow_succ, Nat.pow_succ, Nat.mul_right_comm, Nat.mul_right_comm (2 ^ t)] at h
    obtain ⟨h1, h2⟩ := odd_unique (show 2 ^ s * a = 2 ^ t * b by omega) ha hb
    exact ⟨by omega, h2⟩

theorem passesTest_iff {n s b a : Nat} (h : n - 1 = 2 ^ s * b) (hb : b % 2 = 1) :
    PassesTest n a ↔ (a ^ b % n = 1 ∨ ∃ r, r ≤ s ∧ a ^ (2 ^ r * b) % n = n - 1) := by
  refine ⟨?_, fun h' => ⟨s, b, h, hb, h'⟩⟩
  rintro ⟨s', b', h1, h2, h3⟩
  obtain ⟨rfl, rfl⟩ := odd_unique (h1.symm.trans h) h2 hb
  exact h3

theorem baseLoop_ok {fl : Rat → Rat} (hfl : Rounding fl) {n nPrev b : Big} {N s B : Nat} (hn : n.Ok) (hN : n.toInt = N)
    (hp : nPrev.Ok) (hP : nPrev.toInt = (N - 1 : Nat)) (hN1 : 2 < N) (hb : b.Ok) (hB : b.toInt = B)
    (hs : N - 1 = 2 ^ s * B) (hodd : B % 2 = 1) : ∀ as : List Nat, (∀ a ∈ as, a ≤ 100) →
      ∃ t, baseLoop fl n nPrev b (as.map Int.ofNat) = .ok t ∧ (t = true ↔ ∀ a ∈ as, PassesTest N a)
  | [], _ => ⟨true, rfl, by simp⟩
  | a :: as, ha => by
    have ok1 := little_ok (v := 1) (by decide) (by decide)
    obtain ⟨t, t1, t2⟩ := baseLoop_ok hfl hn hN hp hP hN1 hb hB hs hodd as fun a h => ha a (by simp [h])
    have oka := little_ok (v := (a : Int)) (by omega) (by have := ha a (by simp); omega)
    have hm := modPow_ok hfl oka hb hn
    rw [toInt_ofSmall, hB, hN, modPowValue, if_neg (by omega), if_pos (by omega), Int.toNat_natCast,
      ← Int.natCast_pow, tmod_cast] at hm
    obtain ⟨x, x1, x2, x3⟩ := hm
    rw [List.map_cons, baseLoop]
    show ∃ t, ((Big.ofSmall (a : Int)).modPow fl b n >>= _) = _ ∧ _
    rw [x1]
    show ∃ t, (if (x.equals _ || _) = true then _ else _) = _ ∧ _
    rw [equals_eq x2 ok1, equals_eq x2 hp, x3, hP, toInt_ofSmall]
    simp only [List.mem_cons, forall_eq_or_imp]
    rw [passesTest_iff hs hodd]
    by_cases hc : a ^ B % N = 1 ∨ a ^ B % N = N - 1
    · rw [if_pos (by simp only [Bool.or_eq_true, decide_eq_true_eq]; omega)]
      refine ⟨t, t1, t2.trans ⟨fun h => ⟨?_, h⟩, fun h => h.2⟩⟩
      rcases hc with hc | hc
      · exact .inl hc
      · exact .inr ⟨0, by omega, by simpa using hc⟩
    · rw [if_neg (by simp only [Bool.or_eq_true, decide_eq_true_eq]; omega)]
      have hsl : s < (N - 1) + 1 := by
        have h1 : s < 2 ^ s := Nat.lt_two_pow_self
        have h2 : 2 ^ s * 1 ≤ 2 ^ s * B := Nat.mul_le_mul_left _ (by omega)
        omega
      obtain ⟨u, u1, u2⟩ := squareLoop_ok hfl hn hN hp hP (by omega) (nPrev.magnitude + 1) x2 x3 hb hB hs (by omega)
        (by rw [magnitude_eq, hP, Int.natAbs_natCast]; exact hsl)
      rw [u1]
      show ∃ t, (if u = true then _ else _) = _ ∧ _
      have hconv : ∀ r, (a ^ B % N) ^ 2 ^ r % N = a ^ (2 ^ r * B) % N := by
        intro r
        rw [← Nat.pow_mod, ← Nat.pow_mul, Nat.mul_comm]
      cases u with
      | true =>
        rw [if_pos rfl]
        refine ⟨false, rfl, nofun, fun h => ?_⟩
        rcases h.1 with h1 | ⟨r, h1, h2⟩
        · exact absurd (.inl h1) hc
        · cases r with
          | zero => exact absurd (.inr (by simpa using h2)) hc
          | succ r =>
            have := u2.mpr ⟨r + 1, by omega, h1, by rw [hconv]; exact h2⟩
            cases this
      | false =>
        rw [if_neg (by simp)]
        obtain ⟨r, h1, h2, h3⟩ := u2.mp rfl
        exact ⟨t, t1, t2.trans ⟨fun h => ⟨.inr ⟨r, h2, by rw [← hconv]; exact h3⟩, h⟩, fun h => h.2⟩⟩

theorem isPrime_ok {fl : Rat → Rat} (hfl : Rounding fl) {v : Big} (h : v.Ok) :
    ∃ t, v.isPrime fl = .ok t ∧ (t = true ↔ Passes v.toInt.natAbs) := by
  obtain ⟨n, hn⟩ : ∃ n, v.toInt.natAbs = n := ⟨_, rfl⟩
  rw [hn]
  obtain ⟨r, r1, r2, r3, r4⟩ := isBasicPrime_ok hfl h hn
  rw [Big.isPrime, r1]
  cases r with
  | some p =>
    cases p with
    | true => exact ⟨true, rfl, fun _ => r2 rfl, fun _ => rfl⟩
    | false => exact ⟨false, rfl, nofun, fun h => absurd h (r3 rfl)⟩
  | none =>
    obtain ⟨h1, h2, h3, h4, h5⟩ := r4 rfl
    obtain ⟨a1, a2⟩ := abs_ok h
    rw [hn] at a2
    obtain ⟨p, p1, p2, p3⟩ := prev_ok a1
    have hP : p.toInt = (n - 1 : Nat) := by rw [p3, a2]; omega
    show ∃ t, (v.abs.prev >>= _) = _ ∧ _
    rw [p1]
    obtain ⟨b, s, m, b1, b2, b3, b4, b5⟩ := oddPart_ok hfl (p.magnitude + 1) p2 hP (by omega)
      (by rw [magnitude_eq, hP, Int.natAbs_natCast]; omega)
    show ∃ t, (oddPart fl _ p >>= _) = _ ∧ _
    rw [b1]
    obtain ⟨t, t1, t2⟩ := baseLoop_ok hfl a1 a2 p2 hP (by omega) b2 b3 b4 b5 bases (by decide)
    refine ⟨t, t1, t2.trans ⟨fun h => .inr (.inr (.inr ⟨h1, h2, h3, h4, .inr h⟩)), fun h => ?_⟩⟩
    unfold Passes at h
    rcases h with h | h | h | ⟨_, _, _, _, h | h⟩
    · omega
    · omega
    · omega
    · omega
    · exact h

end Verif.BigJs
