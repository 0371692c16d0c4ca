import Verif.Model.Momenta
import Mathlib.Tactic.LinearCombination
import Mathlib.Tactic.FieldSimp
import Mathlib.Tactic.Positivity
/-!
# C71: the momenta a user sets are the momenta particles start with

`set_momentum`: every living particle of every patch gets (or adds) the momentum, with an `inv_gamma` that belongs to it; dead slots stay.
`temperature_partial`: with equal positive temperatures every living particle gets a momentum of some energy `γ ≥ 1` and `inv_gamma = 1/γ`, or, with
`add`, its old momentum plus such a one. `anisotropy_fails`, `zero_temperature_fails`, `photon_temperature_fails`, `photon_momentum_fails` show where
the code does something else.
-/
namespace Verif.Momenta

/-! ### specification -/

/-- `inv_gamma` belongs to the momentum: `(1 + u²) / γ² = 1` with positive factor -/
def Fits (s : Part) (x y z : ℝ) : Prop :=
  s.ux = some x ∧ s.uy = some y ∧ s.uz = some z ∧ ∃ g : ℝ, s.ig = some g ∧ 0 < g ∧ g ^ 2 * (1 + x ^ 2 + y ^ 2 + z ^ 2) = 1

/-- corresponding slots of corresponding patches -/
def Slotwise (R : Part → Part → Prop) (a b : List (List Part)) : Prop := List.Forall₂ (List.Forall₂ R) a b

/-- what is expected of the generator: as many numbers as asked for, in the range asked for, and a gamma distribution that lives on the positive
numbers, is a point for scale 0 and is refused for negative scales -/
structure Fair {σ : Type} (D : Draw σ) : Prop where
  ulen : ∀ lo hi n g, (D.uniform lo hi n g).1.length = n
  urange : ∀ lo hi n g x, lo ≤ hi → x ∈ (D.uniform lo hi n g).1 → lo ≤ x ∧ x ≤ hi
  glen : ∀ a s n g l g', D.gamma a s n g = some (l, g') → l.length = n
  grange : ∀ a s n g l g' x, D.gamma a s n g = some (l, g') → x ∈ l → 0 ≤ x
  gpoint : ∀ a n g l g' x, D.gamma a 0 n g = some (l, g') → x ∈ l → x = 0
  gneg : ∀ a s n g, s < 0 → D.gamma a s n g = none

/-! ### lemmas -/

theorem fits_give (add : Bool) (x y z : ℝ) (s : Part) (tx ty tz : V)
    (h : (add = false ∧ tx = some x ∧ ty = some y ∧ tz = some z) ∨
      (add = true ∧ vadd s.ux tx = some x ∧ vadd s.uy ty = some y ∧ vadd s.uz tz = some z)) : Fits (give add (tx, ty, tz) s) x y z := by
  have hp : (0 : ℝ) < 1 + x ^ 2 + y ^ 2 + z ^ 2 := by positivity
  have hg : ∀ u : Part, u.ux = some x → u.uy = some y → u.uz = some z → u.ig = invGamma u.ux u.uy u.uz → Fits u x y z := by
    intro u h1 h2 h3 h4
    refine ⟨h1, h2, h3, 1 / Real.sqrt (1 + x ^ 2 + y ^ 2 + z ^ 2), ?_, by positivity, ?_⟩
    · rw [h4, h1, h2, h3]; rfl
    · rw [div_pow, one_pow, Real.sq_sqrt hp.le]
      field_simp
  rcases h with ⟨rfl, h1, h2, h3⟩ | ⟨rfl, h1, h2, h3⟩
  · exact hg _ h1 h2 h3 rfl
  · exact hg _ h1 h2 h3 rfl

theorem fits_slow {s : Part} {x y z : ℝ} (h : Fits s x y z) : ∃ g : ℝ, s.ig = some g ∧ (g * x) ^ 2 + (g * y) ^ 2 + (g * z) ^ 2 < 1 := by
  obtain ⟨_, _, _, g, h1, h2, h3⟩ := h
  refine ⟨g, h1, ?_⟩
  have : 0 < g ^ 2 := by positivity
  nlinarith

theorem nAlive_zero {ps : List Part} (h : nAlive ps = 0) : ∀ s ∈ ps, s.dead = true := by
  intro s hs
  unfold nAlive at h
  have := List.filter_eq_nil_iff.mp (List.length_eq_zero_iff.mp h) s hs
  simpa using this

/-! ### theorems -/

/-- C71: after `SetMomentum`, dead slots are as before and every living particle has the momentum asked for, or its old momentum plus it. -/
theorem set_momentum (add : Bool) (t : ℝ × ℝ × ℝ) (patches : List (List Part)) :
    Slotwise (fun s r => r.dead = s.dead ∧ (s.dead = true → r = s) ∧
      (s.dead = false → (add = false → Fits r t.1 t.2.1 t.2.2) ∧
        (add = true → ∀ x y z, s.ux = some x → s.uy = some y → s.uz = some z → Fits r (x + t.1) (y + t.2.1) (z + t.2.2))))
      patches (setMomentum add t patches) := by
  unfold Slotwise setMomentum
  rw [List.forall₂_map_right_iff]
  apply List.forall₂_same.mpr
  intro ps _
  unfold setPatch
  split
  next h0 =>
    apply List.forall₂_same.mpr
    intro s hs
    exact ⟨rfl, fun _ => rfl, fun h => by rw [nAlive_zero h0 s hs] at h; cases h⟩
  next =>
    rw [List.forall₂_map_right_iff]
    apply List.forall₂_same.mpr
    intro s _
    cases hd : s.dead with
    | true => simp [hd]
    | false =>
      rw [if_neg (by simp)]
      refine ⟨hd, fun h => (by cases h), fun _ => ⟨fun ha => ?_, fun ha x y z hx hy hz => ?_⟩⟩
      · exact fits_give _ _ _ _ _ _ _ _ (.inl ⟨ha, rfl, rfl, rfl⟩)
      · exact fits_give _ _ _ _ _ _ _ _ (.inr ⟨ha, by rw [hx]; rfl, by rw [hy]; rfl, by rw [hz]; rfl⟩)

/-- whatever is accepted was proposed and passed the test -/
theorem pick_mem {ok : ℝ → ℝ → Prop} [∀ a b, Decidable (ok a b)] {l v : List ℝ} {x : ℝ} (h : x ∈ pick ok l v) : x ∈ l ∧ ∃ y ∈ v, ok x y := by
  unfold pick at h
  obtain ⟨⟨a, b⟩, hp, rfl⟩ := List.mem_map.mp h
  obtain ⟨h1, h2⟩ := List.mem_filter.mp hp
  exact ⟨(List.of_mem_zip h1).1, b, (List.of_mem_zip h1).2, by simpa using h2⟩

theorem pick_length {ok : ℝ → ℝ → Prop} [∀ a b, Decidable (ok a b)] {l v : List ℝ} : (pick ok l v).length ≤ l.length := by
  unfold pick
  rw [List.length_map]
  refine (List.length_filter_le _ _).trans ?_
  rw [List.length_zip]
  exact Nat.min_le_left _ _

theorem reject_spec {σ : Type} (round : Nat → σ → Except Err (List ℝ × σ)) (size : Nat) (P : ℝ → Prop)
    (hr : ∀ n g l g', round n g = .ok (l, g') → l.length ≤ n ∧ ∀ x ∈ l, P x) (fuel : Nat) (done : List ℝ) (g : σ) (out : List ℝ) (g' : σ)
    (hd : done.length ≤ size) (hP : ∀ x ∈ done, P x) (h : reject round size fuel done g = .ok (out, g')) : out.length = size ∧ ∀ x ∈ out, P x := by
  induction fuel generalizing done g with
  | zero => cases h
  | succ n ih =>
    rw [reject] at h
    split at h
    next hlt =>
      split at h
      · cases h
      next l g2 he =>
        obtain ⟨h1, h2⟩ := hr _ _ _ _ he
        refine ih _ _ ?_ ?_ h
        · rw [List.length_append]; omega
        · intro x hx
          rcases List.mem_append.mp hx with hx | hx
          · exact hP x hx
          · exact h2 x hx
    next hge =>
      injection h with h
      injection h with h1 h2
      subst h1
      exact ⟨by omega, hP⟩

theorem gammas_spec {σ : Type} (D : Draw σ) (hD : Fair D) (fuel size : Nat) (θ : ℝ) (g : σ) (l : List ℝ) (g' : σ)
    (h : gammas D fuel size θ g = .ok (l, g')) :
    l.length = size ∧ (∀ x ∈ l, 1 ≤ x) ∧ 0 ≤ θ ∧ (1 / 100 < θ → θ ≤ 1 / 2 → ∀ x ∈ l, x ≤ 1 + 10 * θ) ∧ (θ = 0 → ∀ x ∈ l, x = 1) := by
  unfold gammas at h
  split at h
  next h1 =>
    split at h
    · cases h
    next l0 g0 he =>
      injection h with h
      injection h with ha hb
      subst ha
      refine ⟨by rw [List.length_map]; exact hD.glen _ _ _ _ _ _ he, ?_, ?_, fun h => absurd h (not_lt.mpr h1), ?_⟩
      · intro x hx
        obtain ⟨y, hy, rfl⟩ := List.mem_map.mp hx
        have := hD.grange _ _ _ _ _ _ _ he hy
        linarith
      · by_contra hn
        rw [hD.gneg _ _ _ _ (not_le.mp hn)] at he
        cases he
      · intro h0 x hx
        obtain ⟨y, hy, rfl⟩ := List.mem_map.mp hx
        rw [h0] at he
        rw [hD.gpoint _ _ _ _ _ _ he hy, zero_add]
  next h1 =>
    have h1 := not_le.mp h1
    split at h
    next h2 =>
      have := reject_spec (roundMid D θ) size (fun x => 1 ≤ x ∧ x ≤ 1 + 10 * θ) (fun n g l g' hr => by
        unfold roundMid at hr
        injection hr with hr
        injection hr with ha hb
        subst ha
        refine ⟨pick_length.trans (hD.ulen _ _ _ _).le, fun x hx => ?_⟩
        exact hD.urange _ _ _ _ _ (by linarith) (pick_mem hx).1) fuel [] g l g' (Nat.zero_le _) (by simp) h
      exact ⟨this.1, fun x hx => (this.2 x hx).1, by linarith, fun _ _ x hx => (this.2 x hx).2, fun h => by linarith⟩
    next h2 =>
      have h2 := not_le.mp h2
      have := reject_spec (roundHigh D θ) size (fun x => 1 ≤ x) (fun n g l g' hr => by
        unfold roundHigh at hr
        split at hr
        · cases hr
        next a he =>
          injection hr with hr
          injection hr with ha hb
          subst ha
          refine ⟨pick_length.trans (hD.glen _ _ _ _ _ _ he).le, fun x hx => ?_⟩
          obtain ⟨_, _, _, hok⟩ := pick_mem hx
          exact hok.2) fuel [] g l g' (Nat.zero_le _) (by simp) h
      exact ⟨this.1, this.2, by linarith, fun _ h => by linarith, fun h => by linarith⟩

/-- a momentum of energy `γ` -/
def Energy (γ : ℝ) (u : ℝ × ℝ × ℝ) : Prop := u.1 ^ 2 + u.2.1 ^ 2 + u.2.2 ^ 2 = γ ^ 2 - 1

theorem triple_energy (γ φ ct : ℝ) (h1 : 1 ≤ γ) (h2 : -1 ≤ ct) (h3 : ct ≤ 1) : Energy γ (triple γ φ ct) := by
  unfold Energy triple
  have a : Real.sqrt (γ ^ 2 - 1) ^ 2 = γ ^ 2 - 1 := Real.sq_sqrt (by nlinarith)
  have b : Real.sqrt (1 - ct ^ 2) ^ 2 = 1 - ct ^ 2 := Real.sq_sqrt (by nlinarith)
  have c := Real.sin_sq_add_cos_sq φ
  simp only
  linear_combination (Real.sqrt (γ ^ 2 - 1) ^ 2 * Real.sqrt (1 - ct ^ 2) ^ 2) * c + Real.sqrt (γ ^ 2 - 1) ^ 2 * b + a

theorem sample_spec {σ : Type} (D : Draw σ) (hD : Fair D) (fuel size : Nat) (θ : ℝ) (g : σ) (l : List (ℝ × ℝ × ℝ)) (g' : σ)
    (h : sample D fuel size θ g = .ok (l, g')) :
    l.length = size ∧ 0 ≤ θ ∧ ∀ u ∈ l, ∃ γ, 1 ≤ γ ∧ Energy γ u ∧ (1 / 100 < θ → θ ≤ 1 / 2 → γ ≤ 1 + 10 * θ) ∧ (θ = 0 → γ = 1) := by
  unfold sample at h
  split at h
  · cases h
  next l0 g0 he =>
    injection h with h
    injection h with ha hb
    subst ha
    obtain ⟨a1, a2, a3, a4, a5⟩ := gammas_spec D hD _ _ _ _ _ _ he
    refine ⟨?_, a3, fun u hu => ?_⟩
    · rw [List.length_map, List.length_zip, List.length_zip, a1, hD.ulen, hD.ulen]; simp
    · obtain ⟨⟨γ, φ, ct⟩, hq, rfl⟩ := List.mem_map.mp hu
      obtain ⟨m1, m2⟩ := List.of_mem_zip hq
      obtain ⟨m3, m4⟩ := List.of_mem_zip m2
      obtain ⟨c1, c2⟩ := hD.urange _ _ _ _ _ (by norm_num) m4
      exact ⟨γ, a2 _ m1, triple_energy _ _ _ (a2 _ m1) c1 c2, fun h1 h2 => a4 h1 h2 _ m1, fun h => a5 h _ m1⟩

/-- the assignment reaches the living slots in order -/
theorem putAlive_spec (add : Bool) (Q : V × V × V → Prop) (ps : List Part) (ts : List (V × V × V)) (out : List Part) (hQ : ∀ t ∈ ts, Q t)
    (h : putAlive add ps ts = .ok out) :
    List.Forall₂ (fun s r => r.dead = s.dead ∧ (s.dead = true → r = s) ∧ (s.dead = false → ∃ t, Q t ∧ r = give add t s)) ps out := by
  induction ps generalizing ts out with
  | nil =>
    cases ts with
    | nil => injection h with h; subst h; exact .nil
    | cons _ _ => cases h
  | cons s ps ih =>
    rw [putAlive.eq_def] at h
    dsimp only at h
    split at h
    next hd =>
      cases hr : putAlive add ps ts with
      | error e => rw [hr] at h; cases h
      | ok o =>
        rw [hr] at h
        injection h with h
        subst h
        exact .cons ⟨rfl, fun _ => rfl, fun h => by rw [hd] at h; cases h⟩ (ih _ _ hQ hr)
    next hd =>
      have hd : s.dead = false := by simpa using hd
      cases ts with
      | nil => cases h
      | cons t ts =>
        cases hr : putAlive add ps ts with
        | error e => simp only [hr] at h; cases h
        | ok o =>
          simp only [hr] at h
          injection h with h
          subst h
          exact .cons ⟨rfl, fun h => (by rw [hd] at h; cases h), fun _ => ⟨t, hQ t (by simp), rfl⟩⟩
            (ih _ _ (fun t ht => hQ t (by simp [ht])) hr)

/-- a relation that holds patch by patch holds for the whole callback -/
theorem setTemperature_lift {σ : Type} (D : Draw σ) (fuel : Nat) (qe mc2 : ℝ) (T : ℝ × ℝ × ℝ) (add : Bool) (R : List Part → List Part → Prop)
    (hR : ∀ ps g ps' g', heatPatch D fuel qe mc2 T add ps g = .ok (ps', g') → R ps ps')
    (patches : List (List Part)) (g : σ) (out : List (List Part)) (h : setTemperature D fuel qe mc2 T add patches g = .ok out) :
    List.Forall₂ R patches out := by
  induction patches generalizing g out with
  | nil => injection h with h; subst h; exact .nil
  | cons ps rest ih =>
    rw [setTemperature] at h
    split at h
    · cases h
    next ps' g1 he =>
      cases hr : setTemperature D fuel qe mc2 T add rest g1 with
      | error e => rw [hr] at h; cases h
      | ok o =>
        rw [hr] at h
        injection h with h
        subst h
        exact .cons (hR _ _ _ _ he) (ih _ _ hr)

/-- one patch: what reaches the living slots is a stretched momentum of some energy -/
theorem heatPatch_spec {σ : Type} (D : Draw σ) (hD : Fair D) (fuel : Nat) (qe mc2 : ℝ) (T : ℝ × ℝ × ℝ) (add : Bool) (ps : List Part) (g : σ)
    (out : List Part) (g' : σ) (h : heatPatch D fuel qe mc2 T add ps g = .ok (out, g')) :
    List.Forall₂ (fun s r => r.dead = s.dead ∧ (s.dead = true → r = s) ∧ (s.dead = false → ∃ (u : ℝ × ℝ × ℝ) (γ : ℝ), 1 ≤ γ ∧ Energy γ u ∧
      (1 / 100 < T.1 * qe / mc2 → T.1 * qe / mc2 ≤ 1 / 2 → γ ≤ 1 + 10 * (T.1 * qe / mc2)) ∧ (T.1 * qe / mc2 = 0 → γ = 1) ∧
      r = give add (stretch T u) s)) ps out := by
  unfold heatPatch at h
  split at h
  next h0 =>
    injection h with h
    injection h with h1 h2
    subst h1
    apply List.forall₂_same.mpr
    intro s hs
    exact ⟨rfl, fun _ => rfl, fun h => by rw [nAlive_zero h0 s hs] at h; cases h⟩
  next =>
    split at h
    · cases h
    next =>
      split at h
      · cases h
      next l g1 he =>
        cases hp : putAlive add ps (l.map (stretch T)) with
        | error e => rw [hp] at h; cases h
        | ok o =>
          rw [hp] at h
          injection h with h
          injection h with h1 h2
          subst h1
          obtain ⟨_, _, hs⟩ := sample_spec D hD _ _ _ _ _ _ he
          refine (putAlive_spec add (fun t => ∃ u ∈ l, t = stretch T u) ps _ _ (fun t ht => ?_) hp).imp fun s r hsr => ⟨hsr.1, hsr.2.1, fun hd => ?_⟩
          · obtain ⟨u, hu, rfl⟩ := List.mem_map.mp ht
            exact ⟨u, hu, rfl⟩
          · obtain ⟨t, ⟨u, hu, rfl⟩, rfl⟩ := hsr.2.2 hd
            obtain ⟨γ, b1, b2, b3, b4⟩ := hs u hu
            exact ⟨u, γ, b1, b2, b3, b4, rfl⟩

/-- C71 (partial: equal positive temperatures): `SetTemperature` on any patches leaves dead slots alone and gives every living particle a momentum
`u` of an energy `γ ≥ 1`: alone, and then `inv_gamma = 1/γ`, or added to the old momentum, and then `inv_gamma` belongs to the sum. In the middle range
`0.01 < kT/mc² ≤ 0.5` the energy never exceeds `1 + 10 kT/mc²`. Missing: unequal temperatures and zero, where the code fails, and the law of `γ`. -/
theorem temperature_partial {σ : Type} (D : Draw σ) (hD : Fair D) (fuel : Nat) (qe mc2 T : ℝ) (hT : 0 < T) (add : Bool)
    (patches : List (List Part)) (g : σ) (out : List (List Part)) (h : setTemperature D fuel qe mc2 (T, T, T) add patches g = .ok out) :
    Slotwise (fun s r => r.dead = s.dead ∧ (s.dead = true → r = s) ∧ (s.dead = false → ∃ (u : ℝ × ℝ × ℝ) (γ : ℝ), 1 ≤ γ ∧ Energy γ u ∧
      (1 / 100 < T * qe / mc2 → T * qe / mc2 ≤ 1 / 2 → γ ≤ 1 + 10 * (T * qe / mc2)) ∧
      (add = false → Fits r u.1 u.2.1 u.2.2 ∧ r.ig = some (1 / γ)) ∧
      (add = true → ∀ x y z, s.ux = some x → s.uy = some y → s.uz = some z → Fits r (x + u.1) (y + u.2.1) (z + u.2.2)))) patches out := by
  refine setTemperature_lift D fuel qe mc2 (T, T, T) add _ (fun ps g ps' g' hh => ?_) patches g out h
  refine (heatPatch_spec D hD fuel qe mc2 (T, T, T) add ps g ps' g' hh).imp fun s r hr => ⟨hr.1, hr.2.1, fun hd => ?_⟩
  obtain ⟨u, γ, b1, b2, b3, _, rfl⟩ := hr.2.2 hd
  have hs : stretch (T, T, T) u = (some u.1, some u.2.1, some u.2.2) := by
    unfold stretch vdiv
    simp only [if_neg hT.ne', mul_div_assoc, div_self hT.ne', mul_one]
  rw [hs]
  refine ⟨u, γ, b1, b2, b3, fun ha => ?_, fun ha x y z hx hy hz => ?_⟩
  · refine ⟨fits_give _ _ _ _ _ _ _ _ (.inl ⟨ha, rfl, rfl, rfl⟩), ?_⟩
    subst ha
    show some (1 / Real.sqrt (1 + u.1 ^ 2 + u.2.1 ^ 2 + u.2.2 ^ 2)) = _
    have : (1 + u.1 ^ 2 + u.2.1 ^ 2 + u.2.2 ^ 2 : ℝ) = γ ^ 2 := by
      unfold Energy at b2
      linarith
    rw [this, Real.sqrt_sq (by linarith)]
  · exact fits_give _ _ _ _ _ _ _ _ (.inr ⟨ha, by rw [hx]; rfl, by rw [hy]; rfl, by rw [hz]; rfl⟩)

/-- C71: `SetMomentumAndTemperature`, with equal positive temperatures: every living particle has the bulk momentum (plus its old momentum if `add`)
plus a momentum of some energy, and `inv_gamma` belongs to the sum. -/
theorem momentum_and_temperature_partial {σ : Type} (D : Draw σ) (hD : Fair D) (fuel : Nat) (qe mc2 : ℝ) (b : ℝ × ℝ × ℝ) (T : ℝ) (hT : 0 < T)
    (patches : List (List Part)) (g : σ) (out : List (List Part)) (h : setBoth D fuel qe mc2 b (T, T, T) false patches g = .ok out) :
    Slotwise (fun s r => r.dead = s.dead ∧ (s.dead = true → r = s) ∧ (s.dead = false → ∃ (u : ℝ × ℝ × ℝ) (γ : ℝ), 1 ≤ γ ∧ Energy γ u ∧
      Fits r (b.1 + u.1) (b.2.1 + u.2.1) (b.2.2 + u.2.2))) patches out := by
  have h1 := set_momentum false b patches
  have h2 := temperature_partial D hD fuel qe mc2 T hT true (setMomentum false b patches) g out h
  have comp : ∀ {R S U : Part → Part → Prop}, (∀ a b c, R a b → S b c → U a c) → ∀ {l m n : List Part},
      List.Forall₂ R l m → List.Forall₂ S m n → List.Forall₂ U l n := by
    intro R S U hU l m n hl hm
    induction hl generalizing n with
    | nil => cases hm; exact .nil
    | cons a _ ih => cases hm with | cons b hm => exact .cons (hU _ _ _ a b) (ih hm)
  unfold Slotwise at h1 h2 ⊢
  generalize setMomentum false b patches = mid at h1 h2
  clear h
  induction h1 generalizing out with
  | nil => cases h2; exact .nil
  | cons a _ ih =>
    cases h2 with
    | cons c h2 =>
      refine .cons (comp (fun s t r hst htr => ?_) a c) (ih _ h2)
      obtain ⟨p1, p2, p3⟩ := hst
      obtain ⟨q1, q2, q3⟩ := htr
      refine ⟨q1.trans p1, fun hd => ?_, fun hd => ?_⟩
      · rw [q2 (p1.trans hd), p2 hd]
      · obtain ⟨u, γ, r1, r2, _, _, r5⟩ := q3 (p1.trans hd)
        obtain ⟨f1, f2, f3, _⟩ := (p3 hd).1 rfl
        exact ⟨u, γ, r1, r2, r5 rfl _ _ _ f1 f2 f3⟩

/-! ### where the code does something else -/

/-- the assignment of stretched samples, compared with the isotropic one -/
theorem putAlive_stretch (T0 T1 T2 : ℝ) (h0 : T0 ≠ 0) (ps : List Part) (l : List (ℝ × ℝ × ℝ)) (a b : List Part)
    (ha : putAlive false ps (l.map (stretch (T0, T0, T0))) = .ok a) (hb : putAlive false ps (l.map (stretch (T0, T1, T2))) = .ok b) :
    List.Forall₂ (fun r q => r.dead = false → ∃ x y z : ℝ, r.ux = some x ∧ r.uy = some y ∧ r.uz = some z ∧
      q.ux = some x ∧ q.uy = some (T1 / T0 * y) ∧ q.uz = some (T2 / T0 * z)) a b := by
  induction ps generalizing l a b with
  | nil =>
    cases l with
    | nil => injection ha with ha; injection hb with hb; subst ha hb; exact .nil
    | cons _ _ => cases ha
  | cons s ps ih =>
    rw [putAlive.eq_def] at ha hb
    dsimp only at ha hb
    split at ha
    next hd =>
      rw [if_pos hd] at hb
      cases hr : putAlive false ps (l.map (stretch (T0, T0, T0))) with
      | error e => rw [hr] at ha; cases ha
      | ok o =>
        cases hr2 : putAlive false ps (l.map (stretch (T0, T1, T2))) with
        | error e => rw [hr2] at hb; cases hb
        | ok o2 =>
          rw [hr] at ha
          rw [hr2] at hb
          injection ha with ha
          injection hb with hb
          subst ha hb
          exact .cons (fun h => by rw [hd] at h; cases h) (ih _ _ _ hr hr2)
    next hd =>
      rw [if_neg hd] at hb
      cases l with
      | nil => cases ha
      | cons u l =>
        simp only [List.map_cons] at ha hb
        cases hr : putAlive false ps (l.map (stretch (T0, T0, T0))) with
        | error e => rw [hr] at ha; cases ha
        | ok o =>
          cases hr2 : putAlive false ps (l.map (stretch (T0, T1, T2))) with
          | error e => rw [hr2] at hb; cases hb
          | ok o2 =>
            rw [hr] at ha
            rw [hr2] at hb
            injection ha with ha
            injection hb with hb
            subst ha hb
            refine .cons (fun _ => ⟨u.1, u.2.1, u.2.2, rfl, ?_, ?_, rfl, ?_, ?_⟩) (ih _ _ _ hr hr2) <;>
              simp only [give, stretch, vdiv, if_neg h0, Bool.false_eq_true, if_false, mul_div_assoc, div_self h0, mul_one] <;>
              congr 1 <;> ring

/-- C71 fails for unequal temperatures: with temperatures `T0, T1, T2` instead of three times `T0`, and the same random numbers, the momenta along y
are stretched by `T1/T0`, and so their squares by `(T1/T0)²`. The mean square, to which the temperature along y is proportional, is `T1/T0` times that
of the isotropic case only if `T1 = T0` (or all momenta along y are 0). -/
theorem anisotropy_fails {σ : Type} (D : Draw σ) (fuel : Nat) (qe mc2 T0 T1 T2 : ℝ) (h0 : 0 < T0) (h1 : 0 < T1) (h01 : T1 ≠ T0) (ps : List Part) (g : σ)
    (iso an : List (List Part))
    (hi : setTemperature D fuel qe mc2 (T0, T0, T0) false [ps] g = .ok iso) (ha : setTemperature D fuel qe mc2 (T0, T1, T2) false [ps] g = .ok an) :
    Slotwise (fun r q => r.dead = false → ∃ x y z : ℝ, r.ux = some x ∧ r.uy = some y ∧ r.uz = some z ∧
      q.ux = some x ∧ q.uy = some (T1 / T0 * y) ∧ q.uz = some (T2 / T0 * z) ∧ (y ≠ 0 → (T1 / T0 * y) ^ 2 ≠ T1 / T0 * y ^ 2)) iso an := by
  have hsq : ∀ y : ℝ, y ≠ 0 → (T1 / T0 * y) ^ 2 ≠ T1 / T0 * y ^ 2 := by
    intro y hy he
    have hy2 : y ^ 2 ≠ 0 := pow_ne_zero 2 hy
    have hr : T1 / T0 ≠ 0 := (div_pos h1 h0).ne'
    have : T1 / T0 * (T1 / T0) * y ^ 2 = T1 / T0 * 1 * y ^ 2 := by linear_combination he
    have := mul_left_cancel₀ hr (mul_right_cancel₀ hy2 this)
    exact h01 ((div_eq_one_iff_eq h0.ne').mp this)
  simp only [setTemperature] at hi ha
  unfold heatPatch at hi ha
  by_cases hn : nAlive ps = 0
  · rw [if_pos hn] at hi ha
    injection hi with hi
    injection ha with ha
    subst hi ha
    refine .cons (List.forall₂_same.mpr fun s hs h => ?_) .nil
    rw [nAlive_zero hn s hs] at h
    cases h
  · rw [if_neg hn] at hi ha
    by_cases hm : mc2 = 0
    · rw [if_pos hm] at hi
      cases hi
    · rw [if_neg hm] at hi ha
      simp only at hi ha
      cases hs : sample D fuel (nAlive ps) (T0 * qe / mc2) g with
      | error e => rw [hs] at hi; cases hi
      | ok lg =>
        obtain ⟨l, g1⟩ := lg
        rw [hs] at hi ha
        simp only at hi ha
        cases hr : putAlive false ps (l.map (stretch (T0, T0, T0))) with
        | error e => rw [hr] at hi; cases hi
        | ok o =>
          cases hr2 : putAlive false ps (l.map (stretch (T0, T1, T2))) with
          | error e => rw [hr2] at ha; cases ha
          | ok o2 =>
            rw [hr] at hi
            rw [hr2] at ha
            injection hi with hi
            injection ha with ha
            subst hi ha
            refine .cons ((putAlive_stretch T0 T1 T2 h0.ne' ps l _ _ hr hr2).imp fun r q h hd => ?_) .nil
            obtain ⟨x, y, z, a1, a2, a3, a4, a5, a6⟩ := h hd
            exact ⟨x, y, z, a1, a2, a3, a4, a5, a6, hsq y⟩

/-- C71 fails for temperature 0: whatever the generator, a living particle is left with momenta along y and z and a factor that are not numbers. -/
theorem zero_temperature_fails {σ : Type} (D : Draw σ) (hD : Fair D) (fuel : Nat) (qe mc2 : ℝ) (add : Bool) (patches : List (List Part)) (g : σ)
    (out : List (List Part)) (h : setTemperature D fuel qe mc2 (0, 0, 0) add patches g = .ok out) :
    Slotwise (fun s r => s.dead = false → r.uy = none ∧ r.uz = none ∧ r.ig = none) patches out := by
  refine setTemperature_lift D fuel qe mc2 (0, 0, 0) add _ (fun ps g ps' g' hh => ?_) patches g out h
  refine (heatPatch_spec D hD fuel qe mc2 (0, 0, 0) add ps g ps' g' hh).imp fun s r hr hd => ?_
  obtain ⟨u, γ, _, _, _, _, rfl⟩ := hr.2.2 hd
  have hv : ∀ a : V, vadd a none = none := fun a => by cases a <;> rfl
  have hi : ∀ a c : V, invGamma a none c = none := fun a c => by cases a <;> rfl
  cases add <;> simp [give, stretch, vdiv, hv, hi]

/-- C71 fails for photons: their mass is 0, and the temperature divides by it. -/
theorem photon_temperature_fails {σ : Type} (D : Draw σ) (fuel : Nat) (qe : ℝ) (T : ℝ × ℝ × ℝ) (add : Bool) (ps : List Part) (rest : List (List Part)) (g : σ)
    (hl : ∃ s ∈ ps, s.dead = false) : setTemperature D fuel qe 0 T add (ps :: rest) g = .error .zeroDivision := by
  obtain ⟨s, hs, hd⟩ := hl
  have hn : nAlive ps ≠ 0 := fun h => by rw [nAlive_zero h s hs] at hd; cases hd
  rw [setTemperature, heatPatch, if_neg hn, if_pos rfl]

/-- C71 fails for photons: `SetMomentum` stores the factor of a massive particle, so that a photon goes slower than light, and not at all without
momentum. -/
theorem photon_momentum_fails (t : ℝ × ℝ × ℝ) (patches : List (List Part)) :
    Slotwise (fun s r => s.dead = false → ∃ g : ℝ, r.ig = some g ∧ (g * t.1) ^ 2 + (g * t.2.1) ^ 2 + (g * t.2.2) ^ 2 < 1)
      patches (setMomentum false t patches) := by
  refine List.Forall₂.imp (fun a b h => h.imp fun s r h hd => ?_) (set_momentum false t patches)
  exact fits_slow ((h.2.2 hd).1 rfl)

/-! ### examples -/

/-- a generator that always answers with the lower end, and a gamma distribution that is a point -/
noncomputable def exDraw : Draw Unit where
  uniform lo _ n g := (List.replicate n lo, g)
  gamma _ s n g := open Classical in if s < 0 then none else some (List.replicate n s, g)
  pdf _ _ := 1
  top _ := 1

theorem exDraw_fair : Fair exDraw where
  ulen _ _ n _ := by simp [exDraw]
  urange lo hi n g x h hx := by
    have := List.eq_of_mem_replicate hx
    subst this
    exact ⟨le_refl _, h⟩
  glen a s n g l g' h := by
    simp only [exDraw] at h
    split at h
    · cases h
    · injection h with h; injection h with h _; subst h; simp
  grange a s n g l g' x h hx := by
    simp only [exDraw] at h
    split at h
    · cases h
    next hs =>
      injection h with h; injection h with h _; subst h
      rw [List.eq_of_mem_replicate hx]
      exact not_lt.mp hs
  gpoint a n g l g' x h hx := by
    simp only [exDraw] at h
    split at h
    · cases h
    · injection h with h; injection h with h _; subst h
      exact List.eq_of_mem_replicate hx
  gneg a s n g h := by simp [exDraw, h]

/-- a living and a dead particle -/
def exPatch : List Part := [⟨some 0, some 0, some 0, some 1, false⟩, ⟨some 3, some 0, some 0, none, true⟩]

/-- the callback ends on them at every temperature of the low and the middle range -/
example (T : ℝ) (h0 : 0 ≤ T) (h1 : T ≤ 1 / 2) : ∃ out, setTemperature exDraw 2 1 1 (T, T, T) false [exPatch] () = .ok out := by
  have hn : nAlive exPatch = 1 := by simp [nAlive, exPatch]
  have hg : ∃ γ, gammas exDraw 2 1 (T * 1 / 1) () = .ok ([γ], ()) := by
    unfold gammas
    by_cases h : T ≤ 1 / 100
    · exact ⟨T + 1, by simp [exDraw, not_lt.mpr h0, show T ≤ 100⁻¹ by linarith]⟩
    · exact ⟨1, by
        have e1 : ¬ (T ≤ 100⁻¹) := by rw [← one_div]; exact h
        have e2 : T ≤ 2⁻¹ := by rw [← one_div]; exact h1
        simp [e1, e2, reject, roundMid, exDraw, pick]⟩
  obtain ⟨γ, hg⟩ := hg
  simp only [setTemperature, heatPatch, hn, sample, hg]
  simp [exDraw, exPatch, putAlive, Except.map]

end Verif.Momenta
