import Verif.Model.CpmlRun
import Verif.Spec.CpmlRun
import Verif.Proofs.Cpml
import Verif.Proofs.MpiFields
import Verif.Props.Cpml
/-!
# Runs with absorbing layers: lemmas
-/
namespace Verif.Cpml
open SyncFields Maxwell Neighbors

variable {k : Nat} {D : Type}

/-- the layers of the code on one end of an axis, as they start -/
def parOf (W : Whole k) (s : Fin k × Bool) : LayerPar ℚ := ⟨s.2, W.thick, 20, 15 / 100, W.smax⟩

/-- a layer of a patch at coordinates `c` has the cells of `_init_pml` and the auxiliary fields of the grid -/
def LayerShows (W : Whole k) (n : Fin k → Nat) (ng : Nat) (c : Fin k → Nat) (G : Grid k) (s : Fin k × Bool) (l : Layer k) : Prop :=
  l = { build s.1 (n s.1) (parOf W s) with psiE := l.psiE, psiB := l.psiB } ∧
  ∀ d, d ≠ comp s.1 → ∀ v, Own n v → l.psiE d (index n ng v) = G.psiE s d (globalCell n c v) ∧
    l.psiB d (index n ng v) = G.psiB s d (globalCell n c v)

/-- the sides on which the patch at coordinates `c` has a layer -/
def edges (W : Whole k) (np c : Fin k → Nat) : Fin k × Bool → Bool := edge np c fun a _ => W.pml a

/-- what is used of a simulation with layers -/
structure PFacts (Y : PSys k D) (s : Sync k D) (g : Place k) (off : D → Fin k → Int) (opp : D → D) (W : Whole k) (sides : List (Fin k × Bool)) : Prop where
  shape : Shape s off opp
  geo : NbrGeo s g off
  tab : ∀ b a, s.tab b a = guardRng (s.n a) s.ng (off b a)
  N : Y.npatches = s.npatches
  guard : ∀ rk m m', GuardExchange (Y.guardLoc rk) (Y.guardMpi rk) m m' → s.GuardRun m m'
  bc : ∀ a, g.bc a = axisBC (W.pml a)
  full : ∀ c : Fin k → Nat, (∀ a, c a < g.np a) → ∃ u, u < s.npatches ∧ g.coord u = c
  WN : ∀ a, W.N a = g.np a * s.n a
  ng1 : 1 ≤ s.ng
  solveE : ∀ dt ls f, (∀ l ∈ ls, l.stopE ≤ s.n l.axis) → SolvedE W.par dt W.ex s.n s.ng (kappaListE ls) ls f (Y.solveE dt ls f)
  solveB : ∀ dt ls f, (∀ l ∈ ls, l.stopB ≤ s.n l.axis) → SolvedB W.par dt W.ex s.n s.ng (kappaListB ls) ls f (Y.solveB dt ls f)
  two : ∀ a, W.pml a = true → (∀ a, W.thick < s.n a) ∧ 2 ≤ g.np a
  sum : ∀ f : Fin k × Bool → ℚ, (sides.map f).sum = ∑ a : Fin k, ∑ mx : Bool, f (a, mx)
  axes : ∀ p : Fin k × Bool → Bool, (∀ a, ¬ (p (a, false) = true ∧ p (a, true) = true)) → ((sides.filter p).map Prod.fst).Nodup
  mem : ∀ x, x ∈ sides

/-- the patches, guard cells included, show the undivided grid -/
structure PRep (s : Sync k D) (g : Place k) (W : Whole k) (sides : List (Fin k × Bool)) (x : PDom k) (G : Grid k) : Prop where
  e : Shows s.n s.ng s.npatches g (InRange s.n s.ng) (fun t => (x.fld t).e) G.e
  b : Shows s.n s.ng s.npatches g (InRange s.n s.ng) (fun t => (x.fld t).b) G.b
  j : Shows s.n s.ng s.npatches g (Own s.n) (fun t => (x.fld t).j) G.j
  lay : ∀ t, t < s.npatches → List.Forall₂ (LayerShows W s.n s.ng (g.coord t) G) (sides.filter (edges W g.np (g.coord t))) (x.lay t)

/-- everything on the grid repeats itself on the periodic axes -/
structure Whole.Per (W : Whole k) (G : Grid k) : Prop where
  e : W.Periodic G.e
  b : W.Periodic G.b
  j : W.Periodic G.j
  psiE : ∀ s, W.Periodic (G.psiE s)
  psiB : ∀ s, W.Periodic (G.psiB s)

/-! ### the layers of a patch against those of the grid -/

theorem shift_kappa {F : Type} [Field F] (L : LayerPar F) (start stop δ : Nat) (pos : Nat → F) (i : Nat) :
    kappaAt L (start + δ) (stop + δ) pos (i + δ) = kappaAt L start stop pos i := by
  unfold kappaAt
  have h : (start + δ ≤ i + δ ∧ i + δ < stop + δ) ↔ (start ≤ i ∧ i < stop) := by omega
  have h2 : i + δ - (start + δ) = i - start := by omega
  simp only [h, h2]
theorem shift_sigma {F : Type} [Field F] (L : LayerPar F) (start stop δ : Nat) (pos : Nat → F) (i : Nat) :
    sigmaAt L (start + δ) (stop + δ) pos (i + δ) = sigmaAt L start stop pos i := by
  unfold sigmaAt
  have h : (start + δ ≤ i + δ ∧ i + δ < stop + δ) ↔ (start ≤ i ∧ i < stop) := by omega
  have h2 : i + δ - (start + δ) = i - start := by omega
  simp only [h, h2]
theorem shift_a {F : Type} [Field F] (L : LayerPar F) (start stop δ : Nat) (pos : Nat → F) (i : Nat) :
    aAt L (start + δ) (stop + δ) pos (i + δ) = aAt L start stop pos i := by
  unfold aAt
  have h : (start + δ ≤ i + δ ∧ i + δ < stop + δ) ↔ (start ≤ i ∧ i < stop) := by omega
  have h2 : i + δ - (start + δ) = i - start := by omega
  simp only [h, h2]

/-- the number of a cell along an axis -/
theorem global_toNat {n c : Fin k → Nat} {v : Fin k → Int} (hv : Own n v) (a : Fin k) :
    (globalCell n c v a).toNat = (v a).toNat + c a * n a := by
  unfold globalCell
  have h1 := (hv a).1
  have h2 : (0 : Int) ≤ (c a : Int) * n a := by positivity
  rw [Int.toNat_add h2 h1, ← Int.natCast_mul, Int.toNat_natCast]
  omega

/-- a layer at an edge: start and end are moved by the cells below the patch -/
structure Moved (l L : Layer k) (δ : Nat) : Prop where
  startE : L.startE = l.startE + δ
  stopE : L.stopE = l.stopE + δ
  startB : L.startB = l.startB + δ
  stopB : L.stopB = l.stopB + δ
  kE : ∀ i, L.kE (i + δ) = l.kE i
  sE : ∀ i, L.sE (i + δ) = l.sE i
  aE : ∀ i, L.aE (i + δ) = l.aE i
  kB : ∀ i, L.kB (i + δ) = l.kB i
  sB : ∀ i, L.sB (i + δ) = l.sB i
  aB : ∀ i, L.aB (i + δ) = l.aB i

theorem edge_moved (W : Whole k) {n np c : Fin k → Nat} (hN : ∀ a, W.N a = np a * n a) {s : Fin k × Bool} (ht : W.thick < n s.1)
    (he : edges W np c s = true) : Moved (build s.1 (n s.1) (parOf W s)) (W.wall s) (c s.1 * n s.1) := by
  obtain ⟨a, mx⟩ := s
  unfold edges edge at he
  rw [Bool.and_eq_true] at he
  have h1 : startE mx (W.N a) W.thick = startE mx (n a) W.thick + c a * n a ∧ stopE mx (W.N a) W.thick = stopE mx (n a) W.thick + c a * n a ∧
      startB mx (W.N a) W.thick = startB mx (n a) W.thick + c a * n a ∧ stopB mx (W.N a) W.thick = stopB mx (n a) W.thick + c a * n a := by
    unfold startE stopE startB stopB
    cases mx with
    | false =>
      have : c a = 0 := by simpa using he.1
      simp [this]
    | true =>
      have h2 : c a + 1 = np a := by simpa using he.1
      have h3 : W.N a = c a * n a + n a := by rw [hN, ← h2]; ring
      have h4 : W.thick < n a := ht
      simp only [if_true]
      rw [h3]
      refine ⟨?_, ?_, ?_, ?_⟩ <;> omega
  obtain ⟨e1, e2, e3, e4⟩ := h1
  refine ⟨e1, e2, e3, e4, ?_, ?_, ?_, ?_, ?_, ?_⟩
  · intro i
    show kappaAt _ (startE mx (W.N a) W.thick) (stopE mx (W.N a) W.thick) _ _ = kappaAt _ (startE mx (n a) W.thick) (stopE mx (n a) W.thick) _ _
    rw [e1, e2]; exact shift_kappa _ _ _ _ _ _
  · intro i
    show sigmaAt _ (startE mx (W.N a) W.thick) (stopE mx (W.N a) W.thick) _ _ = sigmaAt _ (startE mx (n a) W.thick) (stopE mx (n a) W.thick) _ _
    rw [e1, e2]; exact shift_sigma _ _ _ _ _ _
  · intro i
    show aAt _ (startE mx (W.N a) W.thick) (stopE mx (W.N a) W.thick) _ _ = aAt _ (startE mx (n a) W.thick) (stopE mx (n a) W.thick) _ _
    rw [e1, e2]; exact shift_a _ _ _ _ _ _
  · intro i
    show kappaAt _ (startB mx (W.N a) W.thick) (stopB mx (W.N a) W.thick) _ _ = kappaAt _ (startB mx (n a) W.thick) (stopB mx (n a) W.thick) _ _
    rw [e3, e4]; exact shift_kappa _ _ _ _ _ _
  · intro i
    show sigmaAt _ (startB mx (W.N a) W.thick) (stopB mx (W.N a) W.thick) _ _ = sigmaAt _ (startB mx (n a) W.thick) (stopB mx (n a) W.thick) _ _
    rw [e3, e4]; exact shift_sigma _ _ _ _ _ _
  · intro i
    show aAt _ (startB mx (W.N a) W.thick) (stopB mx (W.N a) W.thick) _ _ = aAt _ (startB mx (n a) W.thick) (stopB mx (n a) W.thick) _ _
    rw [e3, e4]; exact shift_a _ _ _ _ _ _

/-- away from an end its layer has no cell in the patch -/
theorem not_edge (W : Whole k) {n np c : Fin k → Nat} (hN : ∀ a, W.N a = np a * n a) {s : Fin k × Bool} (ht : W.thick < n s.1)
    (hc : c s.1 < np s.1) (hp : W.pml s.1 = true) (he : edges W np c s = false) {v : Fin k → Int} (hv : Own n v) :
    ¬ (W.wall s).InE (globalCell n c v) ∧ ¬ (W.wall s).InB (globalCell n c v) ∧
    (W.wall s).kE (globalCell n c v s.1).toNat = 1 ∧ (W.wall s).kB (globalCell n c v s.1).toNat = 1 := by
  obtain ⟨a, mx⟩ := s
  have ht' : W.thick < n a := ht
  have hc' : c a < np a := hc
  have hg : globalCell n c v a = (c a * n a : Nat) + v a := by unfold globalCell; push_cast; rfl
  have hva := hv a
  have hI := global_toNat (c := c) hv a
  have out : ¬ ((startE mx (W.N a) W.thick : Int) ≤ globalCell n c v a ∧ globalCell n c v a < stopE mx (W.N a) W.thick) ∧
      ¬ ((startB mx (W.N a) W.thick : Int) ≤ globalCell n c v a ∧ globalCell n c v a < stopB mx (W.N a) W.thick) := by
    have hp' : W.pml a = true := hp
    unfold edges edge at he
    dsimp only at he
    rw [hp', Bool.and_true] at he
    unfold startE stopE startB stopB
    cases mx with
    | false =>
      have h0 : c a ≠ 0 := by simpa using he
      have h1 : n a ≤ c a * n a := Nat.le_mul_of_pos_left _ (Nat.pos_of_ne_zero h0)
      simp only [Bool.false_eq_true, if_false]
      rw [hg]
      constructor <;> omega
    | true =>
      have h0 : c a + 1 ≠ np a := by simpa using he
      have h1 : c a + 2 ≤ np a := by omega
      have h2 : (c a + 2) * n a ≤ np a * n a := Nat.mul_le_mul_right _ h1
      have h3 : (c a + 2) * n a = c a * n a + 2 * n a := by ring
      have h4 := hN a
      simp only [if_true]
      rw [hg]
      constructor <;> omega
  refine ⟨out.1, out.2, ?_, ?_⟩
  · show kappaAt _ (startE mx (W.N a) W.thick) (stopE mx (W.N a) W.thick) _ _ = 1
    unfold kappaAt
    rw [if_neg]
    intro h
    apply out.1
    have : globalCell n c v a = ((globalCell n c v a).toNat : Int) := by rw [hg]; omega
    rw [this]
    constructor
    · exact_mod_cast h.1
    · exact_mod_cast h.2
  · show kappaAt _ (startB mx (W.N a) W.thick) (stopB mx (W.N a) W.thick) _ _ = 1
    unfold kappaAt
    rw [if_neg]
    intro h
    apply out.2
    have : globalCell n c v a = ((globalCell n c v a).toNat : Int) := by rw [hg]; omega
    rw [this]
    constructor
    · exact_mod_cast h.1
    · exact_mod_cast h.2

theorem forall2_left {α β : Type} {R : α → β → Prop} : ∀ {l : List α} {l' : List β}, List.Forall₂ R l l' → ∀ {x}, x ∈ l → ∃ y ∈ l', R x y
  | _, _, .nil, _, h => by simp at h
  | _, _, .cons h hs, _, hy => by
    rcases List.mem_cons.mp hy with rfl | hy
    · exact ⟨_, by simp, h⟩
    · obtain ⟨x, hx, hr⟩ := forall2_left hs hy
      exact ⟨x, by simp [hx], hr⟩

theorem LayerShows.axis {W : Whole k} {n : Fin k → Nat} {ng : Nat} {c : Fin k → Nat} {G : Grid k} {s : Fin k × Bool} {l : Layer k}
    (h : LayerShows W n ng c G s l) : l.axis = s.1 := by rw [h.1]; rfl

theorem forall2_axes {W : Whole k} {n : Fin k → Nat} {ng : Nat} {c : Fin k → Nat} {G : Grid k} :
    ∀ {ss : List (Fin k × Bool)} {ls : List (Layer k)}, List.Forall₂ (LayerShows W n ng c G) ss ls → ls.map Layer.axis = ss.map Prod.fst
  | _, _, .nil => rfl
  | _, _, .cons h hs => by rw [List.map_cons, List.map_cons, h.axis, forall2_axes hs]

theorem curlSign_self (d : Fin 3) : curlSign d d = 0 := by
  unfold curlSign
  match d with
  | 0 => rfl
  | 1 => rfl
  | 2 => rfl

theorem filter_sum {α : Type} (p : α → Bool) (f : α → ℚ) (h : ∀ x, p x = false → f x = 0) : ∀ l : List α, ((l.filter p).map f).sum = (l.map f).sum
  | [] => rfl
  | x :: l => by
    rw [List.map_cons, List.sum_cons, ← filter_sum p f h l]
    cases hp : p x with
    | true => rw [List.filter_cons_of_pos hp, List.map_cons, List.sum_cons]
    | false => rw [List.filter_cons_of_neg (by simp [hp]), h x hp, zero_add]

section
variable {Y : PSys k D} {s : Sync k D} {g : Place k} {off : D → Fin k → Int} {opp : D → D} {W : Whole k} {sides : List (Fin k × Bool)}

theorem edge_pml {np c : Fin k → Nat} {x : Fin k × Bool} (h : edges W np c x = true) : W.pml x.1 = true := by
  unfold edges edge at h
  rw [Bool.and_eq_true] at h
  exact h.2

theorem not_both (F : PFacts Y s g off opp W sides) {t : Nat} (a : Fin k) :
    ¬ (edges W g.np (g.coord t) (a, false) = true ∧ edges W g.np (g.coord t) (a, true) = true) := by
  rintro ⟨h1, h2⟩
  have hp := edge_pml h1
  have := (F.two a hp).2
  unfold edges edge at h1 h2
  simp only [Bool.false_eq_true, if_false, if_true, Bool.and_eq_true, decide_eq_true_eq] at h1 h2
  omega

variable {G : Grid k} {x : PDom k}

theorem lay_stop (F : PFacts Y s g off opp W sides) (h : PRep s g W sides x G) {t : Nat} (ht : t < s.npatches) :
    ∀ l ∈ x.lay t, l.stopE ≤ s.n l.axis ∧ l.stopB ≤ s.n l.axis := by
  intro l hl
  obtain ⟨sd, hsd, hsh⟩ := forall2_right (h.lay t ht) hl
  have he := (List.mem_filter.mp hsd).2
  have hth := (F.two _ (edge_pml he)).1
  have hb : Built s.n l := ⟨parOf W sd, hth, by rw [hsh.axis]; exact hsh.1⟩
  exact ⟨hb.stopE_le, hb.stopB_le⟩

/-- `kappa` of a patch is that of the grid -/
theorem kappa_global (F : PFacts Y s g off opp W sides) (h : PRep s g W sides x G) {t : Nat} (ht : t < s.npatches) {v : Fin k → Int}
    (hv : Own s.n v) (a : Fin k) :
    kappaListE (x.lay t) a (v a).toNat = W.kapE a (globalCell s.n (g.coord t) v a).toNat ∧
    kappaListB (x.lay t) a (v a).toNat = W.kapB a (globalCell s.n (g.coord t) v a).toNat := by
  have hl := h.lay t ht
  have hnd : ((x.lay t).map Layer.axis).Nodup := by
    rw [forall2_axes hl]
    exact F.axes _ fun a => not_both F a
  have hk := cpml_kappa hnd a (v a).toNat
  have hc := F.geo.bound t ht
  unfold Whole.kapE Whole.kapB
  by_cases hp : W.pml a = true
  · rw [if_pos hp, if_pos hp]
    have hth := (F.two a hp).1 a
    have one : ∀ mx, edges W g.np (g.coord t) (a, mx) = true → edges W g.np (g.coord t) (a, !mx) = false := by
      intro mx hm
      have := not_both F (t := t) a
      cases mx with
      | false =>
        cases h2 : edges W g.np (g.coord t) (a, !false) with
        | false => rfl
        | true => exact absurd ⟨hm, h2⟩ this
      | true =>
        cases h2 : edges W g.np (g.coord t) (a, !true) with
        | false => rfl
        | true => exact absurd ⟨h2, hm⟩ this
    have have_layer : ∀ mx, edges W g.np (g.coord t) (a, mx) = true → kappaListE (x.lay t) a (v a).toNat =
        (W.wall (a, mx)).kE (globalCell s.n (g.coord t) v a).toNat ∧ kappaListB (x.lay t) a (v a).toNat =
        (W.wall (a, mx)).kB (globalCell s.n (g.coord t) v a).toNat := by
      intro mx hm
      obtain ⟨l, hlm, hsh⟩ := forall2_left hl (List.mem_filter.mpr ⟨F.mem (a, mx), hm⟩)
      have hmv := edge_moved W F.WN (s := (a, mx)) hth hm
      have hg := global_toNat (c := g.coord t) hv a
      obtain ⟨e1, e2⟩ := hk.1 l hlm hsh.axis
      rw [e1, e2, hg, hmv.kE, hmv.kB, hsh.1]
      exact ⟨rfl, rfl⟩
    have no_layer : ∀ mx, edges W g.np (g.coord t) (a, mx) = false →
        (W.wall (a, mx)).kE (globalCell s.n (g.coord t) v a).toNat = 1 ∧ (W.wall (a, mx)).kB (globalCell s.n (g.coord t) v a).toNat = 1 := by
      intro mx hm
      exact (not_edge W F.WN (s := (a, mx)) hth (hc a) hp hm hv).2.2
    by_cases h1 : edges W g.np (g.coord t) (a, false) = true
    · obtain ⟨e1, e2⟩ := have_layer false h1
      obtain ⟨e3, e4⟩ := no_layer true (one false h1)
      rw [e1, e2, e3, e4, mul_one, mul_one]
      exact ⟨rfl, rfl⟩
    · obtain ⟨e3, e4⟩ := no_layer false (by simpa using h1)
      by_cases h2 : edges W g.np (g.coord t) (a, true) = true
      · obtain ⟨e1, e2⟩ := have_layer true h2
        rw [e1, e2, e3, e4, one_mul, one_mul]
        exact ⟨rfl, rfl⟩
      · obtain ⟨e5, e6⟩ := no_layer true (by simpa using h2)
        rw [e3, e4, e5, e6, mul_one]
        apply hk.2
        intro l hlm e
        obtain ⟨sd, hsd, hsh⟩ := forall2_right hl hlm
        have he := (List.mem_filter.mp hsd).2
        obtain ⟨a', mx⟩ := sd
        have : a' = a := hsh.axis.symm.trans e
        subst this
        cases mx with
        | false => exact h1 he
        | true => exact h2 he
  · rw [if_neg hp, if_neg hp]
    apply hk.2
    intro l hlm e
    obtain ⟨sd, hsd, hsh⟩ := forall2_right hl hlm
    have he := edge_pml (List.mem_filter.mp hsd).2
    rw [← hsh.axis, e] at he
    exact hp he

theorem dn_global (n c : Fin k → Nat) (a : Fin k) (v : Fin k → Int) : dn a (globalCell n c v) = globalCell n c (dn a v) := dn_shift a _ v
theorem up_global (n c : Fin k → Nat) (a : Fin k) (v : Fin k → Int) : up a (globalCell n c v) = globalCell n c (up a v) := up_shift a _ v

theorem diffB_global (F : PFacts Y s g off opp W sides) (h : PRep s g W sides x G) {t : Nat} (ht : t < s.npatches) {v : Fin k → Int}
    (hv : Own s.n v) (a : Fin k) (d : Fin 3) :
    diffB (cellsOf s.n s.ng (x.fld t).b) a d v = diffB G.b a d (globalCell s.n (g.coord t) v) := by
  unfold diffB
  rw [dn_global]
  exact congrArg₂ (· - ·) (h.b t ht _ v (hv.inRange _)) (h.b t ht _ _ (dn_inRange F.ng1 hv a))

theorem diffE_global (F : PFacts Y s g off opp W sides) (h : PRep s g W sides x G) {t : Nat} (ht : t < s.npatches) {v : Fin k → Int}
    (hv : Own s.n v) (a : Fin k) (d : Fin 3) :
    diffE (cellsOf s.n s.ng (x.fld t).e) a d v = diffE G.e a d (globalCell s.n (g.coord t) v) := by
  unfold diffE
  rw [up_global]
  exact congrArg₂ (· - ·) (h.e t ht _ _ (up_inRange F.ng1 hv a)) (h.e t ht _ v (hv.inRange _))

theorem moved_InE {W : Whole k} {n c : Fin k → Nat} {l : Layer k} {sd : Fin k × Bool} (hax : l.axis = sd.1) (hm : Moved l (W.wall sd) (c sd.1 * n sd.1))
    {v : Fin k → Int} : (W.wall sd).InE (globalCell n c v) ↔ l.InE v := by
  unfold Layer.InE
  have e1 : (W.wall sd).axis = sd.1 := rfl
  rw [e1, hax, hm.startE, hm.stopE]
  unfold globalCell
  push_cast
  constructor <;> rintro ⟨h1, h2⟩ <;> constructor <;> omega
theorem moved_InB {W : Whole k} {n c : Fin k → Nat} {l : Layer k} {sd : Fin k × Bool} (hax : l.axis = sd.1) (hm : Moved l (W.wall sd) (c sd.1 * n sd.1))
    {v : Fin k → Int} : (W.wall sd).InB (globalCell n c v) ↔ l.InB v := by
  unfold Layer.InB
  have e1 : (W.wall sd).axis = sd.1 := rfl
  rw [e1, hax, hm.startB, hm.stopB]
  unfold globalCell
  push_cast
  constructor <;> rintro ⟨h1, h2⟩ <;> constructor <;> omega

/-- a layer at an edge against that of the grid -/
theorem shows_moved (F : PFacts Y s g off opp W sides) {t : Nat} {sd : Fin k × Bool} {l : Layer k}
    (hsh : LayerShows W s.n s.ng (g.coord t) G sd l) (he : edges W g.np (g.coord t) sd = true) : Moved l (W.wall sd) (g.coord t sd.1 * s.n sd.1) := by
  have hm := edge_moved W F.WN ((F.two _ (edge_pml he)).1 sd.1) he
  rw [hsh.1]
  exact ⟨hm.startE, hm.stopE, hm.startB, hm.stopB, hm.kE, hm.sE, hm.aE, hm.kB, hm.sB, hm.aB⟩

theorem psiE_global (F : PFacts Y s g off opp W sides) (h : PRep s g W sides x G) {t : Nat} (ht : t < s.npatches) {sd : Fin k × Bool}
    {l : Layer k} (hsh : LayerShows W s.n s.ng (g.coord t) G sd l) (he : edges W g.np (g.coord t) sd = true) (dt : ℚ) {d : Fin 3}
    (hd : d ≠ comp sd.1) {v : Fin k → Int} (hv : Own s.n v) :
    l.psiE' W.par dt W.ex s.n s.ng (cellsOf s.n s.ng (x.fld t).b) d v = W.newPsiE dt sd (G.psiE sd) G.b d (globalCell s.n (g.coord t) v) := by
  have hm := shows_moved F hsh he
  have hax := hsh.axis
  unfold Layer.psiE' Whole.newPsiE Layer.bE
  dsimp only
  rw [global_toNat hv, hax, hm.kE, hm.sE, hm.aE, ← diffB_global F h ht hv, ← (hsh.2 d hd v hv).1]

theorem psiB_global (F : PFacts Y s g off opp W sides) (h : PRep s g W sides x G) {t : Nat} (ht : t < s.npatches) {sd : Fin k × Bool}
    {l : Layer k} (hsh : LayerShows W s.n s.ng (g.coord t) G sd l) (he : edges W g.np (g.coord t) sd = true) (dt : ℚ) {d : Fin 3}
    (hd : d ≠ comp sd.1) {v : Fin k → Int} (hv : Own s.n v) :
    l.psiB' W.par dt W.ex s.n s.ng (cellsOf s.n s.ng (x.fld t).e) d v = W.newPsiB dt sd (G.psiB sd) G.e d (globalCell s.n (g.coord t) v) := by
  have hm := shows_moved F hsh he
  have hax := hsh.axis
  unfold Layer.psiB' Whole.newPsiB Layer.bB
  dsimp only
  rw [global_toNat hv, hax, hm.kB, hm.sB, hm.aB, ← diffE_global F h ht hv, ← (hsh.2 d hd v hv).2]

theorem forall2_sum {α β : Type} {R : α → β → Prop} {f : α → ℚ} {f' : β → ℚ} : ∀ {l : List α} {l' : List β}, List.Forall₂ R l l' →
    (∀ x ∈ l, ∀ y, R x y → f' y = f x) → (l'.map f').sum = (l.map f).sum
  | _, _, .nil, _ => rfl
  | _, _, .cons h hs, hf => by
    rw [List.map_cons, List.map_cons, List.sum_cons, List.sum_cons, hf _ (by simp) _ h, forall2_sum hs fun x hx => hf x (by simp [hx])]

theorem addE_global (F : PFacts Y s g off opp W sides) (h : PRep s g W sides x G) {t : Nat} (ht : t < s.npatches) (dt : ℚ) (d : Fin 3)
    {v : Fin k → Int} (hv : Own s.n v) :
    ((x.lay t).map fun l => l.addE W.par dt W.ex s.n s.ng (cellsOf s.n s.ng (x.fld t).b) d v).sum =
    ∑ a : Fin k, ∑ mx : Bool, (if W.InE (a, mx) (globalCell s.n (g.coord t) v) then
      curlSign d (comp a) * (dt * W.par.c2 * W.newPsiE dt (a, mx) (G.psiE (a, mx)) G.b d (globalCell s.n (g.coord t) v)) else 0) := by
  rw [← F.sum fun sd => if W.InE sd (globalCell s.n (g.coord t) v) then
      curlSign d (comp sd.1) * (dt * W.par.c2 * W.newPsiE dt sd (G.psiE sd) G.b d (globalCell s.n (g.coord t) v)) else 0]
  rw [← filter_sum (edges W g.np (g.coord t))]
  · apply forall2_sum (h.lay t ht)
    intro sd hsd l hsh
    have he := (List.mem_filter.mp hsd).2
    have hm := moved_InE hsh.axis (shows_moved F hsh he) (v := v)
    unfold Layer.addE
    rw [hsh.axis]
    by_cases hi : l.InE v
    · rw [if_pos hi, if_pos ⟨edge_pml he, hm.mpr hi⟩]
      by_cases hd : d = comp sd.1
      · rw [hd, curlSign_self, zero_mul, zero_mul]
      · rw [psiE_global F h ht hsh he dt hd hv]
    · rw [if_neg hi, if_neg fun hc => hi (hm.mp hc.2)]
  · intro sd hsd
    rw [if_neg]
    rintro ⟨hp, hi⟩
    exact (not_edge W F.WN ((F.two _ hp).1 sd.1) (F.geo.bound t ht sd.1) hp hsd hv).1 hi

theorem addB_global (F : PFacts Y s g off opp W sides) (h : PRep s g W sides x G) {t : Nat} (ht : t < s.npatches) (dt : ℚ) (d : Fin 3)
    {v : Fin k → Int} (hv : Own s.n v) :
    ((x.lay t).map fun l => l.addB W.par dt W.ex s.n s.ng (cellsOf s.n s.ng (x.fld t).e) d v).sum =
    ∑ a : Fin k, ∑ mx : Bool, (if W.InB (a, mx) (globalCell s.n (g.coord t) v) then
      -(curlSign d (comp a) * (dt * W.newPsiB dt (a, mx) (G.psiB (a, mx)) G.e d (globalCell s.n (g.coord t) v))) else 0) := by
  rw [← F.sum fun sd => if W.InB sd (globalCell s.n (g.coord t) v) then
      -(curlSign d (comp sd.1) * (dt * W.newPsiB dt sd (G.psiB sd) G.e d (globalCell s.n (g.coord t) v))) else 0]
  rw [← filter_sum (edges W g.np (g.coord t))]
  · apply forall2_sum (h.lay t ht)
    intro sd hsd l hsh
    have he := (List.mem_filter.mp hsd).2
    have hm := moved_InB hsh.axis (shows_moved F hsh he) (v := v)
    unfold Layer.addB
    rw [hsh.axis]
    by_cases hi : l.InB v
    · rw [if_pos hi, if_pos ⟨edge_pml he, hm.mpr hi⟩]
      by_cases hd : d = comp sd.1
      · rw [hd, curlSign_self, zero_mul, zero_mul]
      · rw [psiB_global F h ht hsh he dt hd hv]
    · rw [if_neg hi, if_neg fun hc => hi (hm.mp hc.2)]
  · intro sd hsd
    rw [if_neg]
    rintro ⟨hp, hi⟩
    exact (not_edge W F.WN ((F.two _ hp).1 sd.1) (F.geo.bound t ht sd.1) hp hsd hv).2.1 hi

theorem inside_own (F : PFacts Y s g off opp W sides) {t : Nat} (ht : t < s.npatches) {v : Fin k → Int} (hv : Own s.n v) :
    W.Inside (globalCell s.n (g.coord t) v) := by
  intro a _
  have h1 := hv a
  have h2 := F.geo.bound t ht a
  have h3 : (g.coord t a + 1) * s.n a ≤ g.np a * s.n a := Nat.mul_le_mul_right _ h2
  have h4 : (g.coord t a + 1) * s.n a = g.coord t a * s.n a + s.n a := by ring
  have h5 : globalCell s.n (g.coord t) v a = (g.coord t a * s.n a : Nat) + v a := by unfold globalCell; push_cast; rfl
  rw [F.WN a, h5]
  constructor <;> omega

/-- every cell of the grid that a patch sees is an own cell of some patch -/
theorem owner_inside (F : PFacts Y s g off opp W sides) {t : Nat} (ht : t < s.npatches) {w : Fin k → Int} (hw : InRange s.n s.ng w)
    (hin : W.Inside (globalCell s.n (g.coord t) w)) : ∃ u v, u < s.npatches ∧ Own s.n v ∧ g.Same s.n t w u v := by
  have hb := F.geo.bound t ht
  have per : ∀ a, W.pml a = false → (g.bc a).lo = .periodic := fun a h => by rw [F.bc a, h]; rfl
  have npm : ∀ a, W.pml a = true → ¬ (g.bc a).lo = .periodic := fun a h => by rw [F.bc a, h]; decide
  have rng : ∀ a, W.pml a = true → 0 ≤ (g.coord t a : Int) + side (s.n a) (w a) ∧ (g.coord t a : Int) + side (s.n a) (w a) < g.np a := by
    intro a hp
    have h1 := hin a hp
    have h2 := hw a
    have h3 := F.shape.thick a
    have h4 := hb a
    rw [F.WN a] at h1
    have h5 : globalCell s.n (g.coord t) w a = (g.coord t a * s.n a : Nat) + w a := by unfold globalCell; push_cast; rfl
    rw [h5] at h1
    unfold side
    split
    · rename_i h6
      have : g.coord t a ≠ 0 := by
        intro h0
        rw [h0, Nat.zero_mul] at h1
        omega
      constructor <;> omega
    · split
      · constructor <;> omega
      · rename_i h6 h7
        have : g.coord t a + 1 ≠ g.np a := by
          intro h0
          have h8 : g.np a * s.n a = g.coord t a * s.n a + s.n a := by rw [← h0]; ring
          omega
        constructor <;> omega
  obtain ⟨u, hu, hcu⟩ := F.full
    (fun a => (((g.coord t a : Int) + side (s.n a) (w a)) % (g.np a : Int)).toNat) (fun a => by
      have h1 := hb a
      have h2 := Int.emod_lt_of_pos ((g.coord t a : Int) + side (s.n a) (w a)) (b := (g.np a : Int)) (by omega)
      have h3 := Int.emod_nonneg ((g.coord t a : Int) + side (s.n a) (w a)) (b := (g.np a : Int)) (by omega)
      omega)
  have hv' : Own s.n fun a => w a - side (s.n a) (w a) * s.n a := fun a => src_own (F.shape.thick a) (hw a)
  refine ⟨u, _, hu, hv', (same_iff F.shape F.geo hu hw hv').mpr ⟨fun a => ?_, rfl⟩⟩
  refine ⟨F.geo.bound u hu a, ?_⟩
  have h1 := hb a
  have h3 := Int.emod_nonneg ((g.coord t a : Int) + side (s.n a) (w a)) (b := (g.np a : Int)) (by omega)
  cases hp : W.pml a with
  | true =>
    rw [if_neg (npm a hp), hcu, Int.toNat_of_nonneg h3]
    exact Int.emod_eq_of_lt (rng a hp).1 (rng a hp).2
  | false =>
    rw [if_pos (per a hp), hcu, Int.toNat_of_nonneg h3]
    exact Int.mod_modEq _ _

theorem same_whole (F : PFacts Y s g off opp W sides) {t u : Nat} {w v : Fin k → Int} (h : g.Same s.n t w u v) (a : Fin k) :
    if W.pml a = true then globalCell s.n (g.coord t) w a = globalCell s.n (g.coord u) v a
    else globalCell s.n (g.coord t) w a ≡ globalCell s.n (g.coord u) v a [ZMOD (W.N a : Int)] := by
  have := h a
  unfold SameAxis at this
  rw [F.bc a] at this
  cases hp : W.pml a with
  | true =>
    rw [hp, if_neg (by decide)] at this
    rw [if_pos rfl]
    exact this
  | false =>
    rw [hp, if_pos (by decide)] at this
    rw [if_neg (by decide), F.WN a]
    push_cast
    exact this

theorem not_own_index {n : Fin k → Nat} {ng : Nat} {w : Fin k → Int} (hw : InRange n ng w) (hno : ¬ Own n w) :
    ∀ v, Own n v → index n ng v ≠ index n ng w := by
  intro v hv e
  exact hno (index_inj (hv.inRange ng) hw e ▸ hv)

/-- a guard exchange: own cells show the new grid, cells beyond the ends still show it -/
theorem sync_whole (F : PFacts Y s g off opp W sides) {rk : Nat → Nat} {H : V3 k} (hper : W.Periodic H) {A A' : Nat → Fin 3 → Arr k}
    (hrun : ∀ c, GuardExchange (Y.guardLoc rk) (Y.guardMpi rk) (fun l => A l.1 c l.2) fun l => A' l.1 c l.2)
    (hown : Shows s.n s.ng s.npatches g (Own s.n) A H)
    (hout : Shows s.n s.ng s.npatches g (InRange s.n s.ng) (fun t d c => A t d c) H ∨
      ∀ t, t < s.npatches → ∀ d w, InRange s.n s.ng w → ¬ W.Inside (globalCell s.n (g.coord t) w) →
        A t d (index s.n s.ng w) = H d (globalCell s.n (g.coord t) w)) :
    Shows s.n s.ng s.npatches g (InRange s.n s.ng) A' H := by
  intro t htt d w hw
  have gg := guard_global F.shape F.geo F.tab (F.guard rk _ _ (hrun d))
  by_cases ho : ∃ u v, u < s.npatches ∧ Own s.n v ∧ g.Same s.n t w u v
  · obtain ⟨u, v, hu, hv, hsame⟩ := ho
    have := gg.2.1 t w u v htt hu hw hv hsame
    dsimp only at this
    rw [this, hown u hu d v hv]
    exact (hper d _ _ (same_whole F hsame)).symm
  · have := gg.2.2 t w htt hw ho
    dsimp only at this
    rw [this]
    rcases hout with h | h
    · exact h t htt d w hw
    · exact h t htt d w hw fun hin => ho (owner_inside F htt hw hin)

/-! ### periodicity -/

theorem dn_same {W : Whole k} {v w : Fin k → Int} (h : ∀ a, if W.pml a = true then v a = w a else v a ≡ w a [ZMOD (W.N a : Int)]) (y : Fin k) :
    ∀ a, if W.pml a = true then dn y v a = dn y w a else dn y v a ≡ dn y w a [ZMOD (W.N a : Int)] := by
  intro a
  have := h a
  unfold dn
  split
  · rename_i hp
    rw [if_pos hp] at this
    rw [this]
  · rename_i hp
    rw [if_neg hp] at this
    split
    · exact this.sub_right 1
    · exact this
theorem up_same {W : Whole k} {v w : Fin k → Int} (h : ∀ a, if W.pml a = true then v a = w a else v a ≡ w a [ZMOD (W.N a : Int)]) (y : Fin k) :
    ∀ a, if W.pml a = true then up y v a = up y w a else up y v a ≡ up y w a [ZMOD (W.N a : Int)] := by
  intro a
  have := h a
  unfold up
  split
  · rename_i hp
    rw [if_pos hp] at this
    rw [this]
  · rename_i hp
    rw [if_neg hp] at this
    split
    · exact this.add_right 1
    · exact this

theorem pml_eq {W : Whole k} {v w : Fin k → Int} (h : ∀ a, if W.pml a = true then v a = w a else v a ≡ w a [ZMOD (W.N a : Int)]) {a : Fin k}
    (hp : W.pml a = true) : v a = w a := by
  have := h a
  rwa [if_pos hp] at this

theorem inside_same {W : Whole k} {v w : Fin k → Int} (h : ∀ a, if W.pml a = true then v a = w a else v a ≡ w a [ZMOD (W.N a : Int)]) :
    W.Inside v ↔ W.Inside w := by
  unfold Whole.Inside
  constructor
  · intro hi a hp; rw [← pml_eq h hp]; exact hi a hp
  · intro hi a hp; rw [pml_eq h hp]; exact hi a hp

theorem inE_same {W : Whole k} {v w : Fin k → Int} (h : ∀ a, if W.pml a = true then v a = w a else v a ≡ w a [ZMOD (W.N a : Int)])
    (sd : Fin k × Bool) : W.InE sd v ↔ W.InE sd w := by
  unfold Whole.InE Layer.InE
  constructor
  · rintro ⟨hp, hi⟩
    have := pml_eq h hp
    exact ⟨hp, by rw [show (W.wall sd).axis = sd.1 from rfl] at *; rw [← this]; exact hi⟩
  · rintro ⟨hp, hi⟩
    have := pml_eq h hp
    exact ⟨hp, by rw [show (W.wall sd).axis = sd.1 from rfl] at *; rw [this]; exact hi⟩
theorem inB_same {W : Whole k} {v w : Fin k → Int} (h : ∀ a, if W.pml a = true then v a = w a else v a ≡ w a [ZMOD (W.N a : Int)])
    (sd : Fin k × Bool) : W.InB sd v ↔ W.InB sd w := by
  unfold Whole.InB Layer.InB
  constructor
  · rintro ⟨hp, hi⟩
    have := pml_eq h hp
    exact ⟨hp, by rw [show (W.wall sd).axis = sd.1 from rfl] at *; rw [← this]; exact hi⟩
  · rintro ⟨hp, hi⟩
    have := pml_eq h hp
    exact ⟨hp, by rw [show (W.wall sd).axis = sd.1 from rfl] at *; rw [this]; exact hi⟩

theorem newPsiE_same {W : Whole k} {v w : Fin k → Int} (h : ∀ a, if W.pml a = true then v a = w a else v a ≡ w a [ZMOD (W.N a : Int)])
    {sd : Fin k × Bool} (hp : W.pml sd.1 = true) {ψ b : V3 k} (hψ : W.Periodic ψ) (hb : W.Periodic b) (dt : ℚ) (d : Fin 3) :
    W.newPsiE dt sd ψ b d v = W.newPsiE dt sd ψ b d w := by
  unfold Whole.newPsiE diffB
  dsimp only
  rw [pml_eq h hp, hψ d v w h, hb _ v w h, hb _ _ _ (dn_same h sd.1)]
theorem newPsiB_same {W : Whole k} {v w : Fin k → Int} (h : ∀ a, if W.pml a = true then v a = w a else v a ≡ w a [ZMOD (W.N a : Int)])
    {sd : Fin k × Bool} (hp : W.pml sd.1 = true) {ψ e : V3 k} (hψ : W.Periodic ψ) (he : W.Periodic e) (dt : ℚ) (d : Fin 3) :
    W.newPsiB dt sd ψ e d v = W.newPsiB dt sd ψ e d w := by
  unfold Whole.newPsiB diffE
  dsimp only
  rw [pml_eq h hp, hψ d v w h, he _ v w h, he _ _ _ (up_same h sd.1)]

theorem kapE_same {W : Whole k} {v w : Fin k → Int} (h : ∀ a, if W.pml a = true then v a = w a else v a ≡ w a [ZMOD (W.N a : Int)]) (a : Fin k) :
    W.kapE a (v a).toNat = W.kapE a (w a).toNat := by
  unfold Whole.kapE
  split
  · rename_i hp; rw [pml_eq h hp]
  · rfl
theorem kapB_same {W : Whole k} {v w : Fin k → Int} (h : ∀ a, if W.pml a = true then v a = w a else v a ≡ w a [ZMOD (W.N a : Int)]) (a : Fin k) :
    W.kapB a (v a).toNat = W.kapB a (w a).toNat := by
  unfold Whole.kapB
  split
  · rename_i hp; rw [pml_eq h hp]
  · rfl

theorem Whole.Per.stepE {W : Whole k} {G : Grid k} (h : W.Per G) (dt : ℚ) : W.Per (W.stepE dt G) := by
  refine ⟨?_, h.b, h.j, ?_, h.psiB⟩
  · intro d v w hvw
    show (if W.Inside v then _ else _) = (if W.Inside w then _ else _)
    by_cases hi : W.Inside w
    · rw [if_pos hi, if_pos ((inside_same hvw).mpr hi), h.e d v w hvw]
      refine congrArg₂ (· + ·) (congrArg₂ (· + ·) rfl ?_) ?_
      · unfold stretchE diffB
        rw [h.j d v w hvw]
        refine congrArg₂ (· - ·) (Finset.sum_congr rfl fun a _ => ?_) rfl
        rw [kapE_same hvw a, h.b _ v w hvw, h.b _ _ _ (dn_same hvw a)]
      · refine Finset.sum_congr rfl fun a _ => Finset.sum_congr rfl fun mx _ => ?_
        by_cases hI : W.InE (a, mx) w
        · rw [if_pos hI, if_pos ((inE_same hvw _).mpr hI), newPsiE_same hvw hI.1 (h.psiE _) h.b]
        · rw [if_neg hI, if_neg fun hc => hI ((inE_same hvw _).mp hc)]
    · rw [if_neg hi, if_neg fun hc => hi ((inside_same hvw).mp hc)]
      exact h.e d v w hvw
  · intro sd d v w hvw
    show (if W.Inside v ∧ W.InE sd v then _ else _) = (if W.Inside w ∧ W.InE sd w then _ else _)
    by_cases hi : W.Inside w ∧ W.InE sd w
    · rw [if_pos hi, if_pos ⟨(inside_same hvw).mpr hi.1, (inE_same hvw _).mpr hi.2⟩, newPsiE_same hvw hi.2.1 (h.psiE _) h.b]
    · rw [if_neg hi, if_neg fun hc => hi ⟨(inside_same hvw).mp hc.1, (inE_same hvw _).mp hc.2⟩]
      exact h.psiE sd d v w hvw

theorem Whole.Per.stepB {W : Whole k} {G : Grid k} (h : W.Per G) (dt : ℚ) : W.Per (W.stepB dt G) := by
  refine ⟨h.e, ?_, h.j, h.psiE, ?_⟩
  · intro d v w hvw
    show (if W.Inside v then _ else _) = (if W.Inside w then _ else _)
    by_cases hi : W.Inside w
    · rw [if_pos hi, if_pos ((inside_same hvw).mpr hi), h.b d v w hvw]
      refine congrArg₂ (· + ·) (congrArg₂ (· + ·) rfl ?_) ?_
      · unfold stretchB diffE
        refine congrArg Neg.neg (Finset.sum_congr rfl fun a _ => ?_)
        rw [kapB_same hvw a, h.e _ v w hvw, h.e _ _ _ (up_same hvw a)]
      · refine Finset.sum_congr rfl fun a _ => Finset.sum_congr rfl fun mx _ => ?_
        by_cases hI : W.InB (a, mx) w
        · rw [if_pos hI, if_pos ((inB_same hvw _).mpr hI), newPsiB_same hvw hI.1 (h.psiB _) h.e]
        · rw [if_neg hI, if_neg fun hc => hI ((inB_same hvw _).mp hc)]
    · rw [if_neg hi, if_neg fun hc => hi ((inside_same hvw).mp hc)]
      exact h.b d v w hvw
  · intro sd d v w hvw
    show (if W.Inside v ∧ W.InB sd v then _ else _) = (if W.Inside w ∧ W.InB sd w then _ else _)
    by_cases hi : W.Inside w ∧ W.InB sd w
    · rw [if_pos hi, if_pos ⟨(inside_same hvw).mpr hi.1, (inB_same hvw _).mpr hi.2⟩, newPsiB_same hvw hi.2.1 (h.psiB _) h.e]
    · rw [if_neg hi, if_neg fun hc => hi ⟨(inside_same hvw).mp hc.1, (inB_same hvw _).mp hc.2⟩]
      exact h.psiB sd d v w hvw

/-! ### one update and its exchange -/

theorem forall2_comp {α β γ : Type} {R : α → β → Prop} {S : β → γ → Prop} {T : α → γ → Prop} : ∀ {l : List α} {l' : List β} {l'' : List γ},
    List.Forall₂ R l l' → List.Forall₂ S l' l'' → (∀ x ∈ l, ∀ y z, R x y → S y z → T x z) → List.Forall₂ T l l''
  | _, _, _, .nil, .nil, _ => .nil
  | _, _, _, .cons h hs, .cons h' hs', hT => .cons (hT _ (by simp) _ _ h h') (forall2_comp hs hs' fun x hx => hT x (by simp [hx]))

theorem stretchE_global (F : PFacts Y s g off opp W sides) (h : PRep s g W sides x G) {t : Nat} (ht : t < s.npatches) (dt : ℚ) (d : Fin 3)
    {v : Fin k → Int} (hv : Own s.n v) :
    stretchE W.par dt (kappaListE (x.lay t)) (cellsOf s.n s.ng (x.fld t).b) (cellsOf s.n s.ng (x.fld t).j) d v =
    stretchE W.par dt W.kapE G.b G.j d (globalCell s.n (g.coord t) v) := by
  unfold stretchE
  refine congrArg₂ (· - ·) (Finset.sum_congr rfl fun a _ => ?_) ?_
  · rw [diffB_global F h ht hv, (kappa_global F h ht hv a).1]
  · rw [show cellsOf s.n s.ng (x.fld t).j d v = _ from h.j t ht d v hv]
theorem stretchB_global (F : PFacts Y s g off opp W sides) (h : PRep s g W sides x G) {t : Nat} (ht : t < s.npatches) (dt : ℚ) (d : Fin 3)
    {v : Fin k → Int} (hv : Own s.n v) :
    stretchB W.par dt (kappaListB (x.lay t)) (cellsOf s.n s.ng (x.fld t).e) d v =
    stretchB W.par dt W.kapB G.e d (globalCell s.n (g.coord t) v) := by
  unfold stretchB
  refine congrArg Neg.neg (Finset.sum_congr rfl fun a _ => ?_)
  rw [diffE_global F h ht hv, (kappa_global F h ht hv a).2]

theorem stepE_whole (F : PFacts Y s g off opp W sides) (hper : W.Per G) (h : PRep s g W sides x G) (dt : ℚ) {rk : Nat → Nat} {x' : PDom k}
    (hsync : Y.SyncE rk (Y.stepE dt x) x') : PRep s g W sides x' (W.stepE dt G) := by
  obtain ⟨hrun, hbj, hlay⟩ := hsync
  have sv : ∀ t, t < s.npatches → SolvedE W.par dt W.ex s.n s.ng (kappaListE (x.lay t)) (x.lay t) (x.fld t) (Y.solveE dt (x.lay t) (x.fld t)) :=
    fun t ht => F.solveE dt _ _ fun l hl => (lay_stop F h ht l hl).1
  have ef : ∀ t, t < s.npatches → (Y.stepE dt x).fld t = (Y.solveE dt (x.lay t) (x.fld t)).1 := fun t ht => if_pos (F.N ▸ ht)
  have el : ∀ t, t < s.npatches → (Y.stepE dt x).lay t = (Y.solveE dt (x.lay t) (x.fld t)).2 := fun t ht => if_pos (F.N ▸ ht)
  refine ⟨?_, ?_, ?_, ?_⟩
  · refine sync_whole F (hper.stepE dt).e (A := fun t => ((Y.stepE dt x).fld t).e) (A' := fun t => (x'.fld t).e) hrun ?_ (Or.inr ?_)
    · intro t ht d v hv
      show ((Y.stepE dt x).fld t).e d _ = if W.Inside _ then _ else _
      rw [if_pos (inside_own F ht hv), ef t ht, (sv t ht).cells d v hv, stretchE_global F h ht dt d hv, addE_global F h ht dt d hv]
      rw [show (x.fld t).e d (index s.n s.ng v) = _ from h.e t ht d v (hv.inRange _)]
    · intro t ht d w hw hno
      show ((Y.stepE dt x).fld t).e d _ = if W.Inside _ then _ else _
      rw [if_neg hno, ef t ht, (sv t ht).frame d _ (not_own_index hw fun ho => hno (inside_own F ht ho))]
      exact h.e t ht d w hw
  · intro t ht d v hv
    show (x'.fld t).b d _ = G.b d _
    rw [(hbj t).1, ef t ht, (sv t ht).src]
    exact h.b t ht d v hv
  · intro t ht d v hv
    show (x'.fld t).j d _ = G.j d _
    rw [(hbj t).2, ef t ht, (sv t ht).j]
    exact h.j t ht d v hv
  · intro t ht
    rw [hlay, el t ht]
    refine forall2_comp (h.lay t ht) (sv t ht).layers ?_
    intro sd hsd l l' hsh hl
    have he := (List.mem_filter.mp hsd).2
    have hax := hsh.axis
    refine ⟨?_, ?_⟩
    · have := hl.same
      rw [hsh.1] at this
      rw [this]
    · intro d hd v hv
      have hd' : d ≠ comp l.axis := by rw [hax]; exact hd
      have hm := moved_InE hax (shows_moved F hsh he) (v := v)
      have hpsiB : l'.psiB = l.psiB := by rw [hl.same]
      refine ⟨?_, by rw [hpsiB]; exact (hsh.2 d hd v hv).2⟩
      show _ = if W.Inside _ ∧ W.InE sd _ then _ else _
      by_cases hi : l.InE v
      · rw [if_pos ⟨inside_own F ht hv, edge_pml he, hm.mpr hi⟩, hl.inside d hd' v hv hi, psiE_global F h ht hsh he dt hd hv]
      · rw [if_neg fun hc => hi (hm.mp hc.2.2), hl.outside d hd' v hv hi]
        exact (hsh.2 d hd v hv).1

theorem stepB_whole (F : PFacts Y s g off opp W sides) (hper : W.Per G) (h : PRep s g W sides x G) (dt : ℚ) {rk : Nat → Nat} {x' : PDom k}
    (hsync : Y.SyncB rk (Y.stepB dt x) x') : PRep s g W sides x' (W.stepB dt G) := by
  obtain ⟨hrun, hbj, hlay⟩ := hsync
  have sv : ∀ t, t < s.npatches → SolvedB W.par dt W.ex s.n s.ng (kappaListB (x.lay t)) (x.lay t) (x.fld t) (Y.solveB dt (x.lay t) (x.fld t)) :=
    fun t ht => F.solveB dt _ _ fun l hl => (lay_stop F h ht l hl).2
  have ef : ∀ t, t < s.npatches → (Y.stepB dt x).fld t = (Y.solveB dt (x.lay t) (x.fld t)).1 := fun t ht => if_pos (F.N ▸ ht)
  have el : ∀ t, t < s.npatches → (Y.stepB dt x).lay t = (Y.solveB dt (x.lay t) (x.fld t)).2 := fun t ht => if_pos (F.N ▸ ht)
  refine ⟨?_, ?_, ?_, ?_⟩
  · intro t ht d v hv
    show (x'.fld t).e d _ = G.e d _
    rw [(hbj t).1, ef t ht, (sv t ht).src]
    exact h.e t ht d v hv
  · refine sync_whole F (hper.stepB dt).b (A := fun t => ((Y.stepB dt x).fld t).b) (A' := fun t => (x'.fld t).b) hrun ?_ (Or.inr ?_)
    · intro t ht d v hv
      show ((Y.stepB dt x).fld t).b d _ = if W.Inside _ then _ else _
      rw [if_pos (inside_own F ht hv), ef t ht, (sv t ht).cells d v hv, stretchB_global F h ht dt d hv, addB_global F h ht dt d hv]
      rw [show (x.fld t).b d (index s.n s.ng v) = _ from h.b t ht d v (hv.inRange _)]
    · intro t ht d w hw hno
      show ((Y.stepB dt x).fld t).b d _ = if W.Inside _ then _ else _
      rw [if_neg hno, ef t ht, (sv t ht).frame d _ (not_own_index hw fun ho => hno (inside_own F ht ho))]
      exact h.b t ht d w hw
  · intro t ht d v hv
    show (x'.fld t).j d _ = G.j d _
    rw [(hbj t).2, ef t ht, (sv t ht).j]
    exact h.j t ht d v hv
  · intro t ht
    rw [hlay, el t ht]
    refine forall2_comp (h.lay t ht) (sv t ht).layers ?_
    intro sd hsd l l' hsh hl
    have he := (List.mem_filter.mp hsd).2
    have hax := hsh.axis
    refine ⟨?_, ?_⟩
    · have := hl.same
      rw [hsh.1] at this
      rw [this]
    · intro d hd v hv
      have hd' : d ≠ comp l.axis := by rw [hax]; exact hd
      have hm := moved_InB hax (shows_moved F hsh he) (v := v)
      have hpsiE : l'.psiE = l.psiE := by rw [hl.same]
      refine ⟨by rw [hpsiE]; exact (hsh.2 d hd v hv).1, ?_⟩
      show _ = if W.Inside _ ∧ W.InB sd _ then _ else _
      by_cases hi : l.InB v
      · rw [if_pos ⟨inside_own F ht hv, edge_pml he, hm.mpr hi⟩, hl.inside d hd' v hv hi, psiB_global F h ht hsh he dt hd hv]
      · rw [if_neg fun hc => hi (hm.mp hc.2.2), hl.outside d hd' v hv hi]
        exact (hsh.2 d hd v hv).2

theorem step_whole (F : PFacts Y s g off opp W sides) (hper : W.Per G) (h : PRep s g W sides x G) (dt : ℚ) {rk rk' : Nat → Nat}
    {mid x' : PDom k} {J : V3 k} (hJ : W.Periodic J) (hstep : Y.Step rk rk' dt x mid x')
    (hmid : Shows s.n s.ng s.npatches g (Own s.n) (fun t => (mid.fld t).j) J) :
    PRep s g W sides x' (W.step dt J G) ∧ W.Per (W.step dt J G) := by
  obtain ⟨x1, x2, x3, a1, a2, a3, a4, a5⟩ := hstep
  have r1 := stepE_whole F hper h _ a1
  have p1 := hper.stepE (1 / 2 * dt)
  have r2 := stepB_whole F p1 r1 _ a2
  have p2 := p1.stepB (1 / 2 * dt)
  have p3 : W.Per { W.stepB (1 / 2 * dt) (W.stepE (1 / 2 * dt) G) with j := J } := ⟨p2.e, p2.b, hJ, p2.psiE, p2.psiB⟩
  have r3 : PRep s g W sides mid { W.stepB (1 / 2 * dt) (W.stepE (1 / 2 * dt) G) with j := J } := by
    refine ⟨?_, ?_, hmid, ?_⟩
    · intro t ht d v hv
      show (mid.fld t).e d _ = _
      rw [(a3.1 t).1]; exact r2.e t ht d v hv
    · intro t ht d v hv
      show (mid.fld t).b d _ = _
      rw [(a3.1 t).2]; exact r2.b t ht d v hv
    · intro t ht
      rw [a3.2]
      exact r2.lay t ht
  have r4 := stepB_whole F p3 r3 _ a4
  have p4 := p3.stepB (1 / 2 * dt)
  exact ⟨stepE_whole F p4 r4 _ a5, p4.stepE (1 / 2 * dt)⟩
end

/-! ### the layers at the start -/

theorem forall2_map {α β : Type} {R : α → β → Prop} (f : α → β) : ∀ l : List α, (∀ x ∈ l, R x (f x)) → List.Forall₂ R l (l.map f)
  | [], _ => .nil
  | x :: l, h => .cons (h x (by simp)) (forall2_map f l fun y hy => h y (by simp [hy]))

theorem lay_start {W : Whole k} {n c np : Fin k → Nat} {ng : Nat} {G : Grid k} (hE : ∀ sd d v, G.psiE sd d v = 0) (hB : ∀ sd d v, G.psiB sd d v = 0)
    {add : List (Layer k) → Layer k → Option (List (Layer k))} (hadd : ∀ ls l r, add ls l = some r → r = ls ++ [l]) {sides : List (Fin k × Bool)}
    {r : List (Layer k)} (h : initPml add np n c (fun a _ => W.pml a) W.thick W.smax sides [] = some r) :
    List.Forall₂ (LayerShows W n ng c G) (sides.filter (edges W np c)) r := by
  rw [(initPml_eq hadd h).1, List.nil_append]
  refine forall2_map _ _ fun sd _ => ⟨rfl, fun d _ v _ => ?_⟩
  rw [hE, hB]
  exact ⟨rfl, rfl⟩

/-- a patch in the lower corner knows that the layers fit -/
theorem thick_fits {W : Whole k} {n c np : Fin k → Nat} {add : List (Layer k) → Layer k → Option (List (Layer k))}
    (hadd : ∀ ls l r, add ls l = some r → r = ls ++ [l]) {sides : List (Fin k × Bool)} (hmem : ∀ x, x ∈ sides) {r : List (Layer k)}
    (h : initPml add np n c (fun a _ => W.pml a) W.thick W.smax sides [] = some r) (hc : ∀ a, c a = 0) {a : Fin k} (hp : W.pml a = true) :
    ∀ a, W.thick < n a := by
  refine (initPml_eq hadd h).2 (List.ne_nil_of_mem (a := (a, false)) (List.mem_filter.mpr ⟨hmem _, ?_⟩))
  unfold edge
  simp [hc a, hp]

theorem axisBC_paired (p : Bool) : (axisBC p).Paired := by cases p <;> rfl

theorem nvec2 (f : Fin 2 → Nat) : ![f 0, f 1] = f := by funext a; match a with | 0 => rfl | 1 => rfl
theorem nvec3 (f : Fin 3 → Nat) : ![f 0, f 1, f 2] = f := by funext a; match a with | 0 => rfl | 1 => rfl | 2 => rfl

/-- the exchange of one process in 2D -/
def PConf.sync2 (C : PConf 2) : Sync 2 B2 := syncGuard2 (C.n 0) (C.n 1) C.ng (createPatches2 (C.np 0) (C.np 1)).length C.nbr2
/-- the exchange of one process in 3D -/
def PConf.sync3 (C : PConf 3) : Sync 3 B3 := syncGuard3 (C.n 0) (C.n 1) (C.n 2) C.ng (createPatches3 (C.np 0) (C.np 1) (C.np 2)).length C.nbr3
/-- where the patches lie in 2D -/
def PConf.place2 (C : PConf 2) : Place 2 := SyncFields.place2 (C.np 0) (C.np 1) (axisBC (C.pml 0)) (axisBC (C.pml 1)) (createPatches2 (C.np 0) (C.np 1))
/-- where the patches lie in 3D -/
def PConf.place3 (C : PConf 3) : Place 3 :=
  SyncFields.place3 (C.np 0) (C.np 1) (C.np 2) (axisBC (C.pml 0)) (axisBC (C.pml 1)) (axisBC (C.pml 2)) (createPatches3 (C.np 0) (C.np 1) (C.np 2))

theorem place2_coord (C : PConf 2) (t : Nat) : C.place2.coord t = C.coord2 t := by
  show (match (createPatches2 (C.np 0) (C.np 1))[t]? with | some p => ![p.ix, p.iy] | none => ![0, 0]) = C.coord2 t
  unfold PConf.coord2
  cases (createPatches2 (C.np 0) (C.np 1))[t]? <;> rfl
theorem place3_coord (C : PConf 3) (t : Nat) : C.place3.coord t = C.coord3 t := by
  show (match (createPatches3 (C.np 0) (C.np 1) (C.np 2))[t]? with | some p => ![p.ix, p.iy, p.iz] | none => ![0, 0, 0]) = C.coord3 t
  unfold PConf.coord3
  cases (createPatches3 (C.np 0) (C.np 1) (C.np 2))[t]? <;> rfl

theorem place2_full (C : PConf 2) (c : Fin 2 → Nat) (h : ∀ a, c a < C.np a) : ∃ u, u < (pmlSys2 C).npatches ∧ C.coord2 u = c := by
  obtain ⟨p, hp, h1, h2⟩ := full_createPatches2 (C.np 0) (C.np 1) (c 0) (h 0) (c 1) (h 1)
  obtain ⟨u, hu, hpu⟩ := List.mem_iff_getElem.mp hp
  refine ⟨u, hu, ?_⟩
  unfold PConf.coord2
  rw [List.getElem?_eq_getElem hu, hpu]
  show ![p.ix, p.iy] = c
  rw [h1, h2]
  exact nvec2 c
theorem place3_full (C : PConf 3) (c : Fin 3 → Nat) (h : ∀ a, c a < C.np a) : ∃ u, u < (pmlSys3 C).npatches ∧ C.coord3 u = c := by
  obtain ⟨p, hp, h1, h2, h3⟩ := full_createPatches3 (C.np 0) (C.np 1) (C.np 2) (c 0) (h 0) (c 1) (h 1) (c 2) (h 2)
  obtain ⟨u, hu, hpu⟩ := List.mem_iff_getElem.mp hp
  refine ⟨u, hu, ?_⟩
  unfold PConf.coord3
  rw [List.getElem?_eq_getElem hu, hpu]
  show ![p.ix, p.iy, p.iz] = c
  rw [h1, h2, h3]
  exact nvec3 c

/-- the order of `_init_pml` in 2D -/
def order2 : List (Fin 2 × Bool) := [(0, false), (0, true), (1, false), (1, true)]
/-- the order of `_init_pml` in 3D -/
def order3 : List (Fin 3 × Bool) := [(0, false), (0, true), (1, false), (1, true), (2, false), (2, true)]

theorem filter_axes2 (p : Fin 2 × Bool → Bool) (h : ∀ a, ¬ (p (a, false) = true ∧ p (a, true) = true)) : ((order2.filter p).map Prod.fst).Nodup := by
  have h0 := h 0
  have h1 := h 1
  unfold order2
  simp only [List.filter_cons, List.filter_nil]
  cases e0 : p (0, false) <;> cases e1 : p (0, true) <;> cases e2 : p (1, false) <;> cases e3 : p (1, true) <;> simp_all

theorem facts2 (C : PConf 2) (hng : 1 ≤ C.ng) (hle : ∀ a, C.ng ≤ C.n a) (htwo : ∀ a, C.pml a = true → (∀ a, C.thick < C.n a) ∧ 2 ≤ C.np a) :
    PFacts (pmlSys2 C) C.sync2 C.place2 off2 B2.opp C.whole order2 := by
  have hs : Shape C.sync2 off2 B2.opp := guard2_shape (hle 0) (hle 1)
  have hnv : C.sync2.n = C.n := nvec2 C.n
  have hnpv : C.place2.np = C.np := nvec2 C.np
  refine ⟨hs, ?_, guardTab2_eq _ _ _, rfl, ?_, ?_, ?_, ?_, hng, ?_, ?_, ?_, ?_, filter_axes2, ?_⟩
  · exact nbrGeo2 (axisBC_paired _) (axisBC_paired _) (grid_createPatches2 (C.np 0) (C.np 1)) (fun _ h => h) (nodup_createPatches2 _ _) rfl rfl
  · intro rk m m' hrun
    obtain ⟨m'', h⟩ : ∃ m'', C.sync2.GuardRun m m'' := ⟨_, _, Interleave.isSchedule_seq _ _, rfl⟩
    have e : m' = m'' := guard_ranks (rk := rk) (g := C.sync2) (rem := (pmlSys2 C).guardMpi rk) hs (guardTab2_eq _ _ _)
      (mpiGuardTab2_eq _ _ _) (by intro b; show b ∈ B2.all; cases b <;> decide) rfl rfl rfl hrun h
    rw [e]
    exact h
  · intro a
    match a with
    | 0 => rfl
    | 1 => rfl
  · intro c hc
    rw [hnpv] at hc
    obtain ⟨u, hu, e⟩ := place2_full C c hc
    exact ⟨u, hu, (place2_coord C u).trans e⟩
  · intro a
    rw [hnv, hnpv]
    rfl
  · intro dt ls f h
    exact solverE2_spec _ _ _ _ _ _ ls f h
  · intro dt ls f h
    exact solverB2_spec _ _ _ _ _ _ ls f h
  · intro a hp
    rw [hnv, hnpv]
    exact htwo a hp
  · intro f
    simp only [order2, List.map_cons, List.map_nil, List.sum_cons, List.sum_nil, Fin.sum_univ_two, Fintype.sum_bool]
    ring
  · rintro ⟨a, mx⟩
    match a, mx with
    | 0, false => decide
    | 0, true => decide
    | 1, false => decide
    | 1, true => decide

theorem facts3 (C : PConf 3) (hng : 1 ≤ C.ng) (hle : ∀ a, C.ng ≤ C.n a) (htwo : ∀ a, C.pml a = true → (∀ a, C.thick < C.n a) ∧ 2 ≤ C.np a) :
    PFacts (pmlSys3 C) C.sync3 C.place3 off3 B3.opp C.whole order3 := by
  have hs : Shape C.sync3 off3 B3.opp := guard3_shape (hle 0) (hle 1) (hle 2)
  have hnv : C.sync3.n = C.n := nvec3 C.n
  have hnpv : C.place3.np = C.np := nvec3 C.np
  refine ⟨hs, ?_, guardTab3_eq _ _ _ _, rfl, ?_, ?_, ?_, ?_, hng, ?_, ?_, ?_, ?_, filter_axes3, ?_⟩
  · exact nbrGeo3 (axisBC_paired _) (axisBC_paired _) (axisBC_paired _) (grid_createPatches3 (C.np 0) (C.np 1) (C.np 2)) (fun _ h => h)
      (nodup_createPatches3 _ _ _) rfl rfl
  · intro rk m m' hrun
    obtain ⟨m'', h⟩ : ∃ m'', C.sync3.GuardRun m m'' := ⟨_, _, Interleave.isSchedule_seq _ _, rfl⟩
    have e : m' = m'' := guard_ranks (rk := rk) (g := C.sync3) (rem := (pmlSys3 C).guardMpi rk) hs (guardTab3_eq _ _ _ _)
      (mpiGuardTab3_eq _ _ _ _) (by intro b; show b ∈ B3.all; cases b <;> decide) rfl rfl rfl hrun h
    rw [e]
    exact h
  · intro a
    match a with
    | 0 => rfl
    | 1 => rfl
    | 2 => rfl
  · intro c hc
    rw [hnpv] at hc
    obtain ⟨u, hu, e⟩ := place3_full C c hc
    exact ⟨u, hu, (place3_coord C u).trans e⟩
  · intro a
    rw [hnv, hnpv]
    rfl
  · intro dt ls f h
    exact solverE3_spec _ _ _ _ _ _ _ ls f h
  · intro dt ls f h
    exact solverB3_spec _ _ _ _ _ _ _ ls f h
  · intro a hp
    rw [hnv, hnpv]
    exact htwo a hp
  · intro f
    simp only [order3, List.map_cons, List.map_nil, List.sum_cons, List.sum_nil, Fin.sum_univ_three, Fintype.sum_bool]
    ring
  · rintro ⟨a, mx⟩
    match a, mx with
    | 0, false => decide
    | 0, true => decide
    | 1, false => decide
    | 1, true => decide
    | 2, false => decide
    | 2, true => decide

/-- in 2D `_init_pml` only succeeds if the layers fit and absorbing axes have at least two patches -/
theorem two2 (C : PConf 2) (hnp : ∀ a, 0 < C.np a) {lay : Nat → List (Layer 2)} (h : Inits2 C lay) (a : Fin 2) (hp : C.pml a = true) :
    (∀ a, C.thick < C.n a) ∧ 2 ≤ C.np a := by
  obtain ⟨u, hu, hc⟩ := place2_full C (fun _ => 0) hnp
  have hi := h u hu
  have hmem : ∀ x : Fin 2 × Bool, x ∈ [((0 : Fin 2), false), (0, true), (1, false), (1, true)] := by decide
  refine ⟨thick_fits (W := C.whole) addPml2_eq hmem hi (fun b => by rw [hc]) hp, ?_⟩
  by_contra hlt
  have h1 : C.np a = 1 := by have := hnp a; omega
  have hnd := cpml_axes2 hi
  rw [(initPml_eq addPml2_eq hi).1, List.nil_append, List.map_map] at hnd
  have e1 : ∀ mx, edge C.np (C.coord2 u) (fun a _ => C.pml a) (a, mx) = true := by
    intro mx
    unfold edge
    rw [hc]
    cases mx <;> simp [h1, hp]
  have hne : ((a, false) : Fin 2 × Bool) ≠ (a, true) := by simp
  have := List.inj_on_of_nodup_map hnd (List.mem_filter.mpr ⟨hmem _, e1 false⟩) (List.mem_filter.mpr ⟨hmem _, e1 true⟩) rfl
  exact hne this

/-! ### runs -/

theorem run_whole {Y : PSys k D} {s : Sync k D} {g : Place k} {off : D → Fin k → Int} {opp : D → D} {W : Whole k} {sides : List (Fin k × Bool)}
    (F : PFacts Y s g off opp W sides) {dt : ℚ} {M : Nat} {x mid : Nat → PDom k} {rk rk' : Nat → Nat → Nat} {J : Nat → V3 k} {G : Grid k}
    (hper : W.Per G) (h0 : PRep s g W sides (x 0) G) (hJ : ∀ m, m < M → W.Periodic (J m))
    (hstep : ∀ m, m < M → Y.Step (rk m) (rk' m) dt (x m) (mid m) (x (m + 1)))
    (hmid : ∀ m, m < M → Shows s.n s.ng s.npatches g (Own s.n) (fun t => ((mid m).fld t).j) (J m)) :
    ∀ m, m ≤ M → PRep s g W sides (x m) (W.run dt J G m) ∧ W.Per (W.run dt J G m)
  | 0, _ => ⟨h0, hper⟩
  | m + 1, hm => by
    obtain ⟨r, p⟩ := run_whole F hper h0 hJ hstep hmid m (by omega)
    exact step_whole F p r dt (hJ m (by omega)) (hstep m (by omega)) (hmid m (by omega))

end Verif.Cpml
