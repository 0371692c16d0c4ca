import Verif.Spec.Causal
import Verif.Proofs.Symmetry3
/-!
# What a region of the grid depends on
-/
namespace Verif.Causal
open Verif.Maxwell Verif.Pusher Verif.Deposit Verif.Shape Verif.WholeRun Verif.Symmetry
open Finset (range)

variable {k : Nat}

/-! ## regions -/

theorem inner_inner {r s : Nat} {R : (Fin k → Int) → Prop} {c : Fin k → Int} (h : inner (r + s) R c) : inner r (inner s R) c := by
  intro c' hc c'' hc'
  refine h c'' fun a => ?_
  have := hc a
  have := hc' a
  rw [abs_le] at *
  push_cast
  constructor <;> linarith

theorem inner_mono {r s : Nat} (hrs : s ≤ r) {R : (Fin k → Int) → Prop} {c : Fin k → Int} (h : inner r R c) : inner s R c :=
  fun c' hc => h c' fun a => (hc a).trans (by exact_mod_cast hrs)

theorem inner_self {r : Nat} {R : (Fin k → Int) → Prop} {c : Fin k → Int} (h : inner r R c) : R c :=
  h c fun a => by rw [sub_self, abs_zero]; exact Int.natCast_nonneg r

theorem inner_zero {R : (Fin k → Int) → Prop} {c : Fin k → Int} : inner 0 R c ↔ R c := by
  refine ⟨inner_self, fun h c' hc => ?_⟩
  have : c' = c := by
    funext a
    have := hc a
    rw [Nat.cast_zero, abs_nonpos_iff, sub_eq_zero] at this
    exact this
  rwa [this]

theorem inner_region {N : Fin k → Nat} {R : (Fin k → Int) → Prop} (h : Region N R) (r : Nat) : Region N (inner r R) := by
  have one : ∀ c c', (∀ a, c a ≡ c' a [ZMOD N a]) → inner r R c → inner r R c' := by
    intro c c' hc hi w hw
    refine (h (fun a => w a - c' a + c a) w fun a => ?_).mp (hi _ fun a => ?_)
    · have := (hc a).add_left (w a - c' a)
      rwa [sub_add_cancel] at this
    · show |w a - c' a + c a - c a| ≤ r
      rw [add_sub_cancel_right]
      exact hw a
  exact fun c c' hc => ⟨one c c' hc, one c' c fun a => (hc a).symm⟩

/-! ## cells of particles -/

theorem floor_near {x y : ℚ} (n : Nat) (h : |x - y| ≤ n) : |⌊x⌋ - ⌊y⌋| ≤ n := by
  rw [abs_le] at h ⊢
  have h1 : ⌊x⌋ ≤ ⌊y + (n : ℤ)⌋ := Int.floor_le_floor (by push_cast; linarith [h.2])
  have h2 : ⌊y⌋ ≤ ⌊x + (n : ℤ)⌋ := Int.floor_le_floor (by push_cast; linarith [h.1])
  rw [Int.floor_add_intCast] at h1 h2
  constructor <;> linarith

theorem cell_same {np n : Fin k → Nat} {d : Fin k → ℚ} (hd : ∀ a, 0 < d a) {x y : Fin k → ℚ}
    (h : ∀ i, ∃ z : ℤ, x i = y i + z * len np n d i) (a : Fin k) : cellOf d x a ≡ cellOf d y a [ZMOD (np a * n a : Nat)] := by
  obtain ⟨z, hz⟩ := h a
  unfold cellOf
  rw [hz, len_div (hd a).ne']
  have : y a / d a + ((z * (np a * n a : Nat) : ℤ) : ℚ) + 1 / 2 = y a / d a + 1 / 2 + ((z * (np a * n a : Nat) : ℤ) : ℚ) := by ring
  have e : ∀ t : ℚ, y a / d a + t + 1 / 2 = y a / d a + 1 / 2 + t := fun t => by ring
  rw [e, Int.floor_add_intCast]
  refine Int.modEq_iff_dvd.mpr ⟨-z, ?_⟩
  push_cast
  ring

open Classical in
theorem within_same {np n : Fin k → Nat} {d : Fin k → ℚ} (hd : ∀ a, 0 < d a) {R : (Fin k → Int) → Prop}
    (hR : Region (fun a => np a * n a) R) {a b : List (Kind × List (Ptc k))} (h : SameCloud (len np n d) a b) :
    SameCloud (len np n d) (within d R a) (within d R b) :=
  h.kept (f := fun x => decide (R (cellOf d x))) fun x y hxy => by
    simp only [decide_eq_decide]
    exact hR _ _ (cell_same hd hxy)

open Classical in
theorem within_within {d : Fin k → ℚ} {R S : (Fin k → Int) → Prop} (h : ∀ c, S c → R c) (cl : List (Kind × List (Ptc k))) :
    within d S (within d R cl) = within d S cl := by
  unfold within
  rw [List.map_map]
  refine List.map_congr_left fun s _ => ?_
  refine Prod.ext rfl ?_
  show List.filter _ (List.filter _ s.2) = _
  rw [List.filter_filter]
  refine List.filter_congr fun p _ => ?_
  by_cases hS : S (cellOf d p.pos)
  · simp [hS, h _ hS]
  · simp [hS]

open Classical in
theorem within_slow {d : Fin k → ℚ} {dt : ℚ} {R : (Fin k → Int) → Prop} {cl : List (Kind × List (Ptc k))} (h : Slow d dt cl) :
    Slow d dt (within d R cl) := by
  intro s hs p hp
  obtain ⟨s0, h0, rfl⟩ := List.mem_map.mp hs
  exact h s0 h0 p (List.mem_of_mem_filter hp)

/-! ## one step -/

/-- the laws look at near cells and particles only -/
structure Near (Φ : Phys k) (np n : Fin k → Nat) (d : Fin k → ℚ) : Prop where
  fe : LocalFE Φ.FE
  fb : LocalFB Φ.FB
  see : ∀ G G' x, (∀ c : Fin k → Int, (∀ a, |(c a : ℚ) - x a / d a| ≤ 2) → ∀ f, G.e f c = G'.e f c ∧ G.b f c = G'.b f c) →
    Φ.see G x = Φ.see G' x
  seePer : ∀ G x y, G.Per np n → (∀ i, ∃ z : ℤ, x i = y i + z * len np n d i) → Φ.see G x = Φ.see G y
  cur : ∀ cl, Slow d Φ.dt cl → ∀ (R : (Fin k → Int) → Prop), Region (fun a => np a * n a) R → ∀ f c, inner 3 R c →
    Φ.cur cl f c = Φ.cur (within d R cl) f c
  curSame : ∀ a b, SameCloud (len np n d) a b → Slow d Φ.dt a → Φ.cur a = Φ.cur b

section
variable {Φ : Phys k} {np n : Fin k → Nat} {d : Fin k → ℚ} (H : Near Φ np n d)
include H

omit H in
theorem dn_near (a : Fin k) (c : Fin k → Int) : ∀ i, |dn a c i - c i| ≤ (1 : Nat) := by
  intro i; unfold dn; split <;> simp
omit H in
theorem up_near (a : Fin k) (c : Fin k → Int) : ∀ i, |up a c i - c i| ≤ (1 : Nat) := by
  intro i; unfold up; split <;> simp

omit H in
theorem dn_up_near (a b : Fin k) (c : Fin k → Int) : ∀ i, |dn a (up b c) i - c i| ≤ (1 : Nat) := by
  intro i; unfold dn up; split <;> split <;> simp

/-- E at the middle of the step reads the cell and the one below -/
theorem mid_e {G G' : GF k} {c : Fin k → Int} (h0 : ∀ f, G.e f c = G'.e f c ∧ G.b f c = G'.b f c ∧ G.j f c = G'.j f c)
    (h1 : ∀ a f, G.b f (dn a c) = G'.b f (dn a c)) (f : Fin 3) : (midField Φ G).e f c = (midField Φ G').e f c := by
  show G.e f c + Φ.FE (1 / 2 * Φ.dt) G.b G.j f c = G'.e f c + Φ.FE (1 / 2 * Φ.dt) G'.b G'.j f c
  rw [(h0 f).1, H.fe.loc _ _ _ _ _ f c (fun g => (h0 g).2.1) (fun g a => h1 a g) (fun g => (h0 g).2.2)]

theorem mid_near {G G' : GF k} {R : (Fin k → Int) → Prop}
    (h : ∀ c, R c → ∀ f, G.e f c = G'.e f c ∧ G.b f c = G'.b f c ∧ G.j f c = G'.j f c) {c : Fin k → Int} (hc : inner 1 R c) (f : Fin 3) :
    (midField Φ G).e f c = (midField Φ G').e f c ∧ (midField Φ G).b f c = (midField Φ G').b f c := by
  have e0 : ∀ f, (midField Φ G).e f c = (midField Φ G').e f c := fun f =>
    mid_e H (h c (inner_self hc)) (fun a f => (h _ (hc _ (dn_near a c)) f).2.1) f
  have e1 : ∀ x f, (midField Φ G).e f (up x c) = (midField Φ G').e f (up x c) := fun x f =>
    mid_e H (h _ (hc _ (up_near x c))) (fun a f => (h _ (hc _ (dn_up_near a x c)) f).2.1) f
  refine ⟨e0 f, ?_⟩
  show G.b f c + Φ.FB (1 / 2 * Φ.dt) (midField Φ G).e f c = G'.b f c + Φ.FB (1 / 2 * Φ.dt) (midField Φ G').e f c
  rw [(h c (inner_self hc) f).2.1, H.fb.loc _ _ _ f c (fun g => e0 g) (fun g a => e1 a g)]

theorem step_fields {G G' : GF k} {J J' : V3 k} {R : (Fin k → Int) → Prop}
    (h : ∀ c, R c → ∀ f, G.e f c = G'.e f c ∧ G.b f c = G'.b f c ∧ G.j f c = G'.j f c) {c : Fin k → Int} (hc : inner 3 R c)
    (hJ : ∀ f, J f c = J' f c) (f : Fin 3) :
    (GF.step Φ.FE Φ.FB Φ.dt J G).e f c = (GF.step Φ.FE Φ.FB Φ.dt J' G').e f c ∧
    (GF.step Φ.FE Φ.FB Φ.dt J G).b f c = (GF.step Φ.FE Φ.FB Φ.dt J' G').b f c ∧
    (GF.step Φ.FE Φ.FB Φ.dt J G).j f c = (GF.step Φ.FE Φ.FB Φ.dt J' G').j f c := by
  have hc1 : inner 1 (inner 1 (inner 1 R)) c := inner_inner (inner_inner (r := 2) (s := 1) hc)
  have b : ∀ c', inner 1 (inner 1 R) c' → ∀ f, (GF.step Φ.FE Φ.FB Φ.dt J G).b f c' = (GF.step Φ.FE Φ.FB Φ.dt J' G').b f c' := by
    intro c' hc' f
    show (midField Φ G).b f c' + Φ.FB (1 / 2 * Φ.dt) (midField Φ G).e f c' = (midField Φ G').b f c' + Φ.FB (1 / 2 * Φ.dt) (midField Φ G').e f c'
    rw [(mid_near H h (inner_self hc') f).2, H.fb.loc _ _ _ f c' (fun g => (mid_near H h (inner_self hc') g).1)
      (fun g a => (mid_near H h (hc' _ (up_near a c')) g).1)]
  refine ⟨?_, b c (inner_self hc1) f, hJ f⟩
  show (midField Φ G).e f c + Φ.FE (1 / 2 * Φ.dt) (GF.step Φ.FE Φ.FB Φ.dt J G).b J f c
    = (midField Φ G').e f c + Φ.FE (1 / 2 * Φ.dt) (GF.step Φ.FE Φ.FB Φ.dt J' G').b J' f c
  rw [(mid_near H h (inner_self (inner_self hc1)) f).1, H.fe.loc _ _ _ _ _ f c (fun g => b c (inner_self hc1) g)
    (fun g a => b _ (hc1 _ (dn_near a c)) g) hJ]

theorem mid_per {G : GF k} (h : G.Per np n) : (midField Φ G).Per np n := (h.stepE H.fe _).stepB H.fb _

theorem push_same (hd : ∀ a, 0 < d a) {G G' : GF k} (hp' : G'.Per np n) {R : (Fin k → Int) → Prop}
    (h : ∀ c, R c → ∀ f, G.e f c = G'.e f c ∧ G.b f c = G'.b f c) (κ : Kind) (p q : Ptc k)
    (hs : ∀ i : Fin k, |vel p.mom i * Φ.dt| ≤ d i) (hR : inner 3 R (cellOf d p.pos)) (hpq : SamePtc (len np n d) p q) :
    SamePtc (len np n d) (pushed Φ κ G p) (pushed Φ κ G' q) := by
  obtain ⟨x, m⟩ := p
  obtain ⟨y, m'⟩ := q
  obtain ⟨hm, hz⟩ := hpq
  dsimp only at hm hz hs
  subst hm
  have hsee : Φ.see G (fun i : Fin k => x i + lightSpeed * (1 / 2) * Φ.dt * m.invGamma * uAt m i)
      = Φ.see G' (fun i : Fin k => y i + lightSpeed * (1 / 2) * Φ.dt * m.invGamma * uAt m i) := by
    rw [H.see G G' _ fun c hc => h c (hR c fun a => ?_)]
    · apply H.seePer G' _ _ hp'
      intro i
      obtain ⟨z, e⟩ := hz i
      exact ⟨z, by rw [e]; ring⟩
    · have h1 := hc a
      have h2 : |vel m a * Φ.dt / d a| ≤ 1 := by
        rw [abs_div, abs_of_pos (hd a)]
        exact (div_le_one (hd a)).mpr (hs a)
      have e : (x a + lightSpeed * (1 / 2) * Φ.dt * m.invGamma * uAt m a) / d a = x a / d a + vel m a * Φ.dt / d a / 2 := by
        unfold vel; ring
      rw [e, abs_le] at h1
      rw [abs_le] at h2
      show |c a - ⌊x a / d a + 1 / 2⌋| ≤ (3 : Nat)
      have f1 := Int.floor_le (x a / d a + 1 / 2)
      have f2 := Int.lt_floor_add_one (x a / d a + 1 / 2)
      have g1 : ((c a - ⌊x a / d a + 1 / 2⌋ : ℤ) : ℚ) ≤ 3 := by push_cast; linarith [h1.2, h2.2]
      have g2 : (-3 : ℚ) ≤ ((c a - ⌊x a / d a + 1 / 2⌋ : ℤ) : ℚ) := by push_cast; linarith [h1.1, h2.1]
      rw [abs_le]
      constructor
      · exact_mod_cast g2
      · exact_mod_cast g1
  unfold pushed
  dsimp only
  rw [hsee]
  refine ⟨rfl, fun i => ?_⟩
  obtain ⟨z, e⟩ := hz i
  exact ⟨z, by dsimp only; rw [e]; ring⟩

omit H in
theorem push_cell (hd : ∀ a, 0 < d a) (κ : Kind) (G : GF k) (p : Ptc k) (h1 : ∀ i : Fin k, |vel p.mom i * Φ.dt| ≤ d i)
    (h2 : ∀ i : Fin k, |vel (pushed Φ κ G p).mom i * Φ.dt| ≤ d i) (a : Fin k) :
    |cellOf d p.pos a - cellOf d (pushed Φ κ G p).pos a| ≤ (1 : Nat) := by
  unfold cellOf
  apply floor_near
  rw [pushed_pos]
  have : p.pos a / d a + 1 / 2 - ((p.pos a + vel p.mom a * Φ.dt / 2 + vel (pushed Φ κ G p).mom a * Φ.dt / 2) / d a + 1 / 2)
      = -((vel p.mom a * Φ.dt / 2 + vel (pushed Φ κ G p).mom a * Φ.dt / 2) / d a) := by ring
  rw [this, abs_neg, abs_div, abs_of_pos (hd a), Nat.cast_one, div_le_one (hd a)]
  have a1 := h1 a
  have a2 := h2 a
  rw [abs_le] at *
  constructor <;> linarith [a1.1, a1.2, a2.1, a2.2]

open Classical in
/-- the pushed particles of a list that lie in the region `S`, from those that were in the region `R` -/
theorem push_list (hd : ∀ a, 0 < d a) {G G' : GF k} (hp' : G'.Per np n) {R S : (Fin k → Int) → Prop} (hRR : Region (fun a => np a * n a) S)
    (h : ∀ c, R c → ∀ f, G.e f c = G'.e f c ∧ G.b f c = G'.b f c) (κ : Kind) (hS : ∀ c, S c → inner 4 R c) {a b : List (Ptc k)}
    (ha : ∀ p ∈ a, (∀ i : Fin k, |vel p.mom i * Φ.dt| ≤ d i) ∧ ∀ i : Fin k, |vel (pushed Φ κ G p).mom i * Φ.dt| ≤ d i)
    (hb : ∀ p ∈ b, (∀ i : Fin k, |vel p.mom i * Φ.dt| ≤ d i) ∧ ∀ i : Fin k, |vel (pushed Φ κ G' p).mom i * Φ.dt| ≤ d i)
    {T : (Fin k → Int) → Prop} (hT : ∀ c, R c → T c) (hTR : Region (fun a => np a * n a) R)
    (hab : SameParticles (len np n d) (a.filter fun p => decide (T (cellOf d p.pos))) (b.filter fun p => decide (T (cellOf d p.pos)))) :
    SameParticles (len np n d) ((a.map (pushed Φ κ G)).filter fun p => decide (S (cellOf d p.pos)))
      ((b.map (pushed Φ κ G')).filter fun p => decide (S (cellOf d p.pos))) := by
  have back : ∀ (G : GF k) (l : List (Ptc k)), (∀ p ∈ l, (∀ i : Fin k, |vel p.mom i * Φ.dt| ≤ d i) ∧
        ∀ i : Fin k, |vel (pushed Φ κ G p).mom i * Φ.dt| ≤ d i) → ∀ p ∈ l, S (cellOf d (pushed Φ κ G p).pos) → inner 3 R (cellOf d p.pos) := by
    intro G l hl p hp hs
    exact inner_inner (r := 1) (s := 3) (hS _ hs) _ fun a => push_cell hd κ G p (hl p hp).1 (hl p hp).2 a
  have cut : ∀ (G : GF k) (l : List (Ptc k)), (∀ p ∈ l, (∀ i : Fin k, |vel p.mom i * Φ.dt| ≤ d i) ∧
        ∀ i : Fin k, |vel (pushed Φ κ G p).mom i * Φ.dt| ≤ d i) →
      (l.map (pushed Φ κ G)).filter (fun p => decide (S (cellOf d p.pos)))
        = ((l.filter fun p => decide (T (cellOf d p.pos))).map (pushed Φ κ G)).filter fun p => decide (S (cellOf d p.pos)) := by
    intro G l hl
    rw [List.filter_map, List.filter_map, List.filter_filter]
    congr 1
    refine List.filter_congr fun p hp => ?_
    by_cases hs : S (cellOf d (pushed Φ κ G p).pos)
    · simp [hs, hT _ (inner_self (back G l hl p hp hs))]
    · simp [hs]
  rw [cut G a ha, cut G' b hb]
  replace ha : ∀ p ∈ a.filter fun p => decide (T (cellOf d p.pos)), _ := fun p hp => ha p (List.mem_of_mem_filter hp)
  replace hb : ∀ p ∈ b.filter fun p => decide (T (cellOf d p.pos)), _ := fun p hp => hb p (List.mem_of_mem_filter hp)
  generalize a.filter (fun p => decide (T (cellOf d p.pos))) = a at *
  generalize b.filter (fun p => decide (T (cellOf d p.pos))) = b at *
  obtain ⟨b', hp, hf⟩ := hab
  refine ⟨(b'.map (pushed Φ κ G')).filter fun p => decide (S (cellOf d p.pos)), (hp.map _).filter _, ?_⟩
  replace hb : ∀ p ∈ b', _ := fun p hp0 => hb p (hp.mem_iff.mp hp0)
  clear hp cut
  induction hf with
  | nil => exact .nil
  | @cons p q a' b'' h1 _ ih =>
    have ih' := ih (fun p hp => ha p (List.mem_cons_of_mem _ hp)) fun p hp => hb p (List.mem_cons_of_mem _ hp)
    have pa := ha p List.mem_cons_self
    have qb := hb q List.mem_cons_self
    rw [List.map_cons, List.map_cons, List.filter_cons, List.filter_cons]
    by_cases hR : inner 3 R (cellOf d p.pos)
    · have hs := push_same H hd hp' h κ p q pa.1 hR h1
      have e : S (cellOf d (pushed Φ κ G p).pos) ↔ S (cellOf d (pushed Φ κ G' q).pos) := hRR _ _ (cell_same hd hs.2)
      by_cases hS' : S (cellOf d (pushed Φ κ G p).pos)
      · rw [if_pos (by simpa using hS'), if_pos (by simpa using e.mp hS')]
        exact .cons hs ih'
      · rw [if_neg (by simpa using hS'), if_neg (by simpa using fun hh => hS' (e.mpr hh))]
        exact ih'
    · have hR' : ¬ inner 3 R (cellOf d q.pos) := fun hh => hR ((inner_region hTR 3 _ _ (cell_same hd h1.2)).mpr hh)
      rw [if_neg (by simpa using fun hh => hR (back G _ ha p List.mem_cons_self hh)),
        if_neg (by simpa using fun hh => hR' (back G' _ hb q List.mem_cons_self hh))]
      exact ih'

/-- one step: what agrees on a region agrees in its cells that are eight cells inside -/
theorem step_agree (hd : ∀ a, 0 < d a) {R : (Fin k → Int) → Prop} (hR : Region (fun a => np a * n a) R) {W W' : World k}
    (hper' : W'.fld.Per np n) (hs : Slow d Φ.dt W.cloud) (hs' : Slow d Φ.dt W'.cloud)
    (hn : Slow d Φ.dt (W.step Φ).cloud) (hn' : Slow d Φ.dt (W'.step Φ).cloud) (h : AgreeOn (len np n d) d R W W') :
    AgreeOn (len np n d) d (inner 8 R) (W.step Φ) (W'.step Φ) := by
  have hsp : SameCloud (len np n d) (within d (inner 5 R) (W.step Φ).cloud) (within d (inner 5 R) (W'.step Φ).cloud) := by
    have hc := h.species
    have s1 : ∀ s ∈ W.cloud, ∀ p ∈ s.2, (∀ i : Fin k, |vel p.mom i * Φ.dt| ≤ d i) ∧
        ∀ i : Fin k, |vel (pushed Φ s.1 (midField Φ W.fld) p).mom i * Φ.dt| ≤ d i := fun s h p hp =>
      ⟨hs s h p hp, hn _ (List.mem_map.mpr ⟨s, h, rfl⟩) _ (List.mem_map.mpr ⟨p, hp, rfl⟩)⟩
    have s2 : ∀ s ∈ W'.cloud, ∀ p ∈ s.2, (∀ i : Fin k, |vel p.mom i * Φ.dt| ≤ d i) ∧
        ∀ i : Fin k, |vel (pushed Φ s.1 (midField Φ W'.fld) p).mom i * Φ.dt| ≤ d i := fun s h p hp =>
      ⟨hs' s h p hp, hn' _ (List.mem_map.mpr ⟨s, h, rfl⟩) _ (List.mem_map.mpr ⟨p, hp, rfl⟩)⟩
    have hm : ∀ c, inner 1 R c → ∀ f, (midField Φ W.fld).e f c = (midField Φ W'.fld).e f c ∧
        (midField Φ W.fld).b f c = (midField Φ W'.fld).b f c := fun c hc f => mid_near H h.fields hc f
    have hp' := mid_per H hper'
    show SameCloud _ (within d _ (W.cloud.map fun s => (s.1, s.2.map (pushed Φ s.1 (midField Φ W.fld)))))
      (within d _ (W'.cloud.map fun s => (s.1, s.2.map (pushed Φ s.1 (midField Φ W'.fld)))))
    generalize midField Φ W.fld = G at *
    generalize midField Φ W'.fld = G' at *
    unfold within at hc ⊢
    generalize W.cloud = a at hc s1
    generalize W'.cloud = b at hc s2
    clear h hs hs' hn hn' hper'
    induction a generalizing b with
    | nil =>
      cases b with
      | nil => exact .nil
      | cons s b => cases hc
    | cons s a ih =>
      cases b with
      | nil => cases hc
      | cons s' b =>
        rw [List.map_cons, List.map_cons] at hc
        cases hc with
        | cons h1 t =>
          refine .cons ⟨h1.1, ?_⟩ (ih (fun s hs => s1 s (List.mem_cons_of_mem _ hs)) b t fun s hs => s2 s (List.mem_cons_of_mem _ hs))
          have e : s'.1 = s.1 := h1.1.symm
          have s2' := s2 s' List.mem_cons_self
          show SameParticles _ ((s.2.map (pushed Φ s.1 G)).filter _) ((s'.2.map (pushed Φ s'.1 G')).filter _)
          rw [e] at s2' ⊢
          exact push_list H hd hp' (inner_region hR 5) hm s.1 (fun c hc => inner_inner (r := 4) (s := 1) hc)
            (s1 s List.mem_cons_self) s2' (T := R) (fun c hc => inner_self hc) (inner_region hR 1) h1.2
  refine ⟨?_, ?_⟩
  · intro c hc f
    refine step_fields H h.fields (inner_mono (by omega) hc) (fun f => ?_) f
    show Φ.cur (W.step Φ).cloud f c = Φ.cur (W'.step Φ).cloud f c
    rw [H.cur _ hn _ (inner_region hR 5) f c (inner_inner (r := 3) (s := 5) hc),
      H.cur _ hn' _ (inner_region hR 5) f c (inner_inner (r := 3) (s := 5) hc), H.curSame _ _ hsp (within_slow hn)]
  · have := within_same hd (inner_region hR 8) hsp
    rwa [within_within (fun c hc => inner_mono (by omega) hc), within_within (fun c hc => inner_mono (by omega) hc)] at this
end

end Verif.Causal
