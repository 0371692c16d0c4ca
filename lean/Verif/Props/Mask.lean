import Verif.Model.Mask
import Verif.Props.Neighbors
import Verif.Props.Cpml
import Verif.Props.Output
/-!
# C74 — a simulation with a mask

`Inside D mask i j` is the specification: the patch in column `i` and row `j` of the grid is part of the simulation exactly if the mask holds at its
centre.
-/
namespace Verif.Mask
open Neighbors Cpml Output

/-- place `(i, j)` of the grid of patches is in the mask: the mask holds at the middle of the place -/
def Inside (D : Box) (mask : ℚ → ℚ → Bool) (i j : Int) : Prop :=
  0 ≤ i ∧ i < D.npx ∧ 0 ≤ j ∧ j < D.npy ∧ mask (((i : ℚ) + 1 / 2) * (D.lx / D.npx)) (((j : ℚ) + 1 / 2) * (D.ly / D.npy)) = true

theorem mem_places (D : Box) (c : Nat × Nat) : c ∈ places D ↔ c.1 < D.npx ∧ c.2 < D.npy := by
  obtain ⟨i, j⟩ := c
  simp [places]
  tauto

theorem nodup_places (D : Box) : (places D).Nodup := by
  unfold places
  rw [List.nodup_flatMap]
  refine ⟨fun a _ => List.nodup_range.map fun x y h => (Prod.mk.inj h).1, ?_⟩
  apply List.nodup_range.imp
  intro a b hab x hx hy
  obtain ⟨_, _, rfl⟩ := List.mem_map.mp hx
  obtain ⟨_, _, h⟩ := List.mem_map.mp hy
  exact hab (Prod.mk.inj h).2.symm

/-- the mask at the centre of a place -/
def at' (D : Box) (mask : ℚ → ℚ → Bool) (c : Nat × Nat) : Bool := mask (centre D c.1 c.2).1 (centre D c.1 c.2).2

theorem inside_iff (D : Box) (mask : ℚ → ℚ → Bool) (i j : Nat) : Inside D mask i j ↔ (i, j) ∈ places D ∧ at' D mask (i, j) = true := by
  rw [mem_places]
  unfold Inside at' centre
  simp only [Int.natCast_nonneg, true_and, Nat.cast_lt, Int.cast_natCast, mul_div_assoc]
  tauto

theorem fold_visit (D : Box) (mask : ℚ → ℚ → Bool) : ∀ (l : List (Nat × Nat)) (ps : List P2),
    l.foldl (visit D mask) (ps, ps.length) =
      (ps ++ ((l.filter (at' D mask)).zipIdx ps.length).map (fun x => ⟨x.2, x.1.1, x.1.2⟩), ps.length + (l.filter (at' D mask)).length)
  | [], ps => by simp
  | c :: l, ps => by
    rw [List.foldl_cons]
    by_cases h : at' D mask c = true
    · have e : visit D mask (ps, ps.length) c = (ps ++ [⟨ps.length, c.1, c.2⟩], (ps ++ [(⟨ps.length, c.1, c.2⟩ : P2)]).length) := by
        unfold visit
        rw [List.length_append]
        exact if_pos h
      rw [e, fold_visit D mask l, List.filter_cons_of_pos h, List.zipIdx_cons, List.map_cons]
      simp
      omega
    · have e : visit D mask (ps, ps.length) c = (ps, ps.length) := if_neg h
      rw [e, fold_visit D mask l, List.filter_cons_of_neg h]

theorem chosen_eq (D : Box) (mask : ℚ → ℚ → Bool) :
    chosen D mask = (((places D).filter (at' D mask)).zipIdx).map (fun x => (⟨x.2, x.1.1, x.1.2⟩ : P2)) := by
  have := fold_visit D mask (places D) []
  unfold chosen
  rw [show (([] : List P2), 0) = ([], ([] : List P2).length) from rfl, this]
  simp

theorem chosen_coords (D : Box) (mask : ℚ → ℚ → Bool) : (chosen D mask).map (fun p => (p.ix, p.iy)) = (places D).filter (at' D mask) := by
  rw [chosen_eq, List.map_map]
  have : ((fun p : P2 => (p.ix, p.iy)) ∘ fun x : (Nat × Nat) × Nat => (⟨x.2, x.1.1, x.1.2⟩ : P2)) = Prod.fst := by
    funext x; rfl
  rw [this, List.zipIdx_map_fst]

theorem chosen_index (D : Box) (mask : ℚ → ℚ → Bool) : (chosen D mask).map P2.index = List.range (chosen D mask).length := by
  have h : (chosen D mask).map P2.index = List.range ((places D).filter (at' D mask)).length := by
    rw [chosen_eq, List.map_map]
    have : (P2.index ∘ fun x : (Nat × Nat) × Nat => (⟨x.2, x.1.1, x.1.2⟩ : P2)) = Prod.snd := by
      funext x; rfl
    rw [this, List.zipIdx_map_snd, List.range_eq_range']
  rw [h, ← chosen_coords, List.length_map]

theorem chosen_mem (D : Box) (mask : ℚ → ℚ → Bool) (i j : Nat) : Inside D mask i j ↔ ∃ p ∈ chosen D mask, p.ix = i ∧ p.iy = j := by
  rw [inside_iff, ← List.mem_filter, ← chosen_coords]
  simp

theorem chosen_get (D : Box) (mask : ℚ → ℚ → Bool) (k : Nat) (p : P2) (h : (chosen D mask)[k]? = some p) : p.index = k := by
  have h1 : ((chosen D mask).map P2.index)[k]? = some p.index := by rw [List.getElem?_map, h]; rfl
  rw [chosen_index] at h1
  obtain ⟨_, h2⟩ := List.getElem?_eq_some_iff.mp h1
  simpa using h2.symm

theorem chosen_grid (D : Box) (mask : ℚ → ℚ → Bool) : Grid2 D.npx D.npy (chosen D mask) := by
  have hn : ((chosen D mask).map fun p => (p.ix, p.iy)).Nodup := by rw [chosen_coords]; exact (nodup_places D).filter _
  have hi : ((chosen D mask).map P2.index).Nodup := by rw [chosen_index]; exact List.nodup_range
  refine ⟨fun p hp => ?_, fun p hp q hq h1 h2 => ?_, fun p hp q hq h => ?_⟩
  · have := (inside_iff D mask _ _).mp ((chosen_mem D mask p.ix p.iy).mpr ⟨p, hp, rfl, rfl⟩)
    exact (mem_places D _).mp this.1
  · exact List.inj_on_of_nodup_map hn hp hq (by simp [h1, h2])
  · exact List.inj_on_of_nodup_map hi hp hq h

theorem eraseDups_le {α : Type} [BEq α] : ∀ (n : Nat) (l : List α), l.length ≤ n → l.eraseDups.length ≤ l.length
  | _, [], _ => by simp
  | 0, _ :: _, h => by simp at h
  | n + 1, a :: l, h => by
    rw [List.eraseDups_cons, List.length_cons, List.length_cons]
    have h1 := List.length_filter_le (fun b => !b == a) l
    have h2 := eraseDups_le n (l.filter fun b => !b == a) (by simp at h; omega)
    omega

theorem places_length (D : Box) : (places D).length = D.npx * D.npy := by
  simp [places, List.length_flatMap, Nat.mul_comm]

/-- the neighbour table is complete: the patch next door, or `-1` -/
theorem neighbour_cases (D : Box) (mask : ℚ → ℚ → Bool) (p : P2) (hp : p ∈ chosen D mask) (b : B2) :
    neighbour D (chosen D mask) p b = some (-1) ∨ ∃ q ∈ chosen D mask, neighbour D (chosen D mask) p b = some (q.index : Int) := by
  by_cases hf : mapLen2 (chosen D mask) = D.npx * D.npy
  · have hall : (places D).filter (at' D mask) = places D := by
      apply List.Sublist.eq_of_length_le List.filter_sublist
      rw [places_length, ← hf, ← chosen_coords]
      unfold mapLen2
      exact eraseDups_le _ _ le_rfl
    refine neighborIndex2_total (chosen_grid D mask) (fun i hi j hj => ?_) hp b
    have : (i, j) ∈ (places D).filter (at' D mask) := by rw [hall, mem_places]; exact ⟨hi, hj⟩
    rw [← chosen_coords] at this
    simpa using this
  · unfold neighbour neighborIndex2
    cases wrapCoord D.npx openEnds (p.ix + b.offset.1) with
    | none => exact Or.inl rfl
    | some ni =>
      cases wrapCoord D.npy openEnds (p.iy + b.offset.2) with
      | none => exact Or.inl rfl
      | some nj =>
        dsimp only
        cases hm : mapGet2 (chosen D mask) ni nj with
        | none => left; dsimp only; rw [if_neg hf]
        | some k =>
          right
          unfold mapGet2 at hm
          obtain ⟨q, hq, rfl⟩ := Option.map_eq_some_iff.mp hm
          exact ⟨q, by simpa using List.mem_of_find?_eq_some hq, rfl⟩

/-- **C74.** The simulation is refused exactly if the mask holds at the centre of no patch. -/
theorem mask_refused (D : Box) (mask : ℚ → ℚ → Bool) : create D mask = none ↔ ∀ i j, ¬ Inside D mask i j := by
  have hemp : chosen D mask = [] ↔ ∀ i j, ¬ Inside D mask i j := by
    constructor
    · intro h i j hij
      obtain ⟨i, rfl⟩ := Int.eq_ofNat_of_zero_le hij.1
      obtain ⟨j, rfl⟩ := Int.eq_ofNat_of_zero_le hij.2.2.1
      obtain ⟨p, hp, _⟩ := (chosen_mem D mask i j).mp hij
      rw [h] at hp
      simp at hp
    · intro h
      rw [List.eq_nil_iff_forall_not_mem]
      intro p hp
      exact h _ _ ((chosen_mem D mask p.ix p.iy).mpr ⟨p, hp, rfl, rfl⟩)
  rw [← hemp]
  unfold create
  dsimp only
  constructor
  · intro h
    by_contra hne
    rw [if_neg hne, if_pos] at h
    · cases h
    · rw [List.all_eq_true]
      intro p hp
      rw [List.all_eq_true]
      intro b _
      rcases neighbour_cases D mask p hp b with h | ⟨q, _, h⟩ <;> rw [h] <;> rfl
  · intro h
    rw [if_pos h]

theorem create_eq {D : Box} {mask : ℚ → ℚ → Bool} {ps : List P2} (h : create D mask = some ps) : ps = chosen D mask := by
  unfold create at h
  dsimp only at h
  split at h
  · cases h
  · split at h
    · exact (Option.some.inj h).symm
    · cases h

/-- **C74.** Otherwise there is exactly one patch for every place in the mask and none for the others, and its global index is its position in the
list; the list is row by row. -/
theorem mask_patches (D : Box) (mask : ℚ → ℚ → Bool) (ps : List P2) (h : create D mask = some ps) :
    (∀ i j : Nat, Inside D mask i j ↔ ∃ p ∈ ps, p.ix = i ∧ p.iy = j) ∧ (ps.map fun p => (p.ix, p.iy)).Nodup ∧
    (∀ (k : Nat) p, ps[k]? = some p → p.index = k) ∧
    ps.Pairwise fun p q => p.iy < q.iy ∨ (p.iy = q.iy ∧ p.ix < q.ix) := by
  rw [create_eq h]
  refine ⟨chosen_mem D mask, ?_, chosen_get D mask, ?_⟩
  · rw [chosen_coords]; exact (nodup_places D).filter _
  · have hp : (places D).Pairwise fun a b => a.2 < b.2 ∨ (a.2 = b.2 ∧ a.1 < b.1) := by
      unfold places
      rw [List.pairwise_flatMap]
      refine ⟨fun j _ => ?_, ?_⟩
      · rw [List.pairwise_map]
        exact List.pairwise_lt_range.imp fun h => Or.inr ⟨rfl, h⟩
      · refine List.pairwise_lt_range.imp fun {a b} h x hx y hy => ?_
        obtain ⟨_, _, rfl⟩ := List.mem_map.mp hx
        obtain ⟨_, _, rfl⟩ := List.mem_map.mp hy
        exact Or.inl h
    have := hp.filter (at' D mask)
    rw [← chosen_coords, List.pairwise_map] at this
    exact this

theorem open_paired : openEnds.Paired := rfl

theorem adj_open {n c : Nat} {o : Int} {m : Nat} (hm : m < n) : Adj n openEnds c o m ↔ (m : Int) = c + o := by
  unfold Adj openEnds
  simp
  omega

/-- **C74.** Across every face and corner the neighbour of a patch is the patch in the mask at the place next door; there is none exactly if that
place is not in the mask or not in the grid. (`stepOf2` is the step a boundary stands for, as in C12.) -/
theorem mask_neighbours (D : Box) (mask : ℚ → ℚ → Bool) (ps : List P2) (h : create D mask = some ps) (p : P2) (hp : p ∈ ps) (b : B2) :
    (∀ q ∈ ps, neighbour D ps p b = some (q.index : Int) ↔ (q.ix : Int) = p.ix + (stepOf2 b).1 ∧ (q.iy : Int) = p.iy + (stepOf2 b).2) ∧
    (neighbour D ps p b = some (-1) ↔ ¬ Inside D mask (p.ix + (stepOf2 b).1) (p.iy + (stepOf2 b).2)) := by
  rw [create_eq h] at hp ⊢
  have hg := chosen_grid D mask
  have hb := hg.bound p hp
  have key : ∀ q ∈ chosen D mask, neighbour D (chosen D mask) p b = some (q.index : Int) ↔
      (q.ix : Int) = p.ix + (stepOf2 b).1 ∧ (q.iy : Int) = p.iy + (stepOf2 b).2 := by
    intro q hq
    unfold neighbour
    rw [neighborIndex2_some open_paired open_paired hg hp, ← offset_eq_step2]
    constructor
    · rintro ⟨r, hr, e, h⟩
      have hrq := hg.indexInj r hr q hq e
      subst hrq
      have hbr := hg.bound r hr
      rw [adj_open hbr.1, adj_open hbr.2] at h
      exact h
    · intro h
      have hbq := hg.bound q hq
      exact ⟨q, hq, rfl, (adj_open hbq.1).mpr h.1, (adj_open hbq.2).mpr h.2⟩
  refine ⟨key, ?_⟩
  constructor
  · intro h hin
    obtain ⟨i, hi⟩ := Int.eq_ofNat_of_zero_le hin.1
    obtain ⟨j, hj⟩ := Int.eq_ofNat_of_zero_le hin.2.2.1
    rw [hi, hj] at hin
    obtain ⟨q, hq, e1, e2⟩ := (chosen_mem D mask i j).mp hin
    have := (key q hq).mpr ⟨by omega, by omega⟩
    rw [h] at this
    simp at this
  · intro h
    rcases neighbour_cases D mask p hp b with h' | ⟨q, hq, h'⟩
    · exact h'
    · obtain ⟨e1, e2⟩ := (key q hq).mp h'
      rw [← e1, ← e2] at h
      exact absurd ((chosen_mem D mask _ _).mpr ⟨q, hq, rfl, rfl⟩) h

/-- **C74.** `domain_mask` is true exactly in the cells of the places in the mask. -/
theorem mask_cells (D : Box) (mask : ℚ → ℚ → Bool) (ps : List P2) (h : create D mask = some ps) (hx : 0 < D.nx) (hy : 0 < D.ny) (x y : Nat) :
    domainMask D ps x y = true ↔ Inside D mask (x / D.nx : Nat) (y / D.ny : Nat) := by
  rw [(mask_patches D mask ps h).1]
  unfold domainMask
  have gen : ∀ (l : List P2) (m : Nat → Nat → Bool), (l.foldl (cover D) m) x y = true ↔
      m x y = true ∨ ∃ p ∈ l, p.ix = x / D.nx ∧ p.iy = y / D.ny := by
    intro l
    induction l with
    | nil => intro m; simp
    | cons p l ih =>
      intro m
      rw [List.foldl_cons, ih]
      have hc : cover D m p x y = true ↔ m x y = true ∨ (p.ix = x / D.nx ∧ p.iy = y / D.ny) := by
        have e : ∀ n q z : Nat, 0 < n → (q * n ≤ z ∧ z < (q + 1) * n ↔ q = z / n) := by
          intro n q z hn
          rw [eq_comm, Nat.div_eq_iff hn]
          constructor
          · rintro ⟨a, b⟩
            rw [Nat.succ_mul] at b
            omega
          · rintro ⟨a, b⟩
            rw [Nat.succ_mul]
            omega
        unfold cover
        rw [← e D.nx p.ix x hx, ← e D.ny p.iy y hy]
        split <;> rename_i hh
        · simp [hh]
        · constructor
          · exact Or.inl
          · rintro (h | h)
            · exact h
            · exact absurd ⟨h.1.1, h.1.2, h.2⟩ hh
      rw [hc]
      simp
      tauto
  rw [gen]
  simp

/-- the sides of a patch and the place next door -/
def next (p : P2) (s : Fin 2 × Bool) : Int × Int :=
  if s.1 = 0 then ((p.ix : Int) + (if s.2 then 1 else -1), (p.iy : Int)) else ((p.ix : Int), (p.iy : Int) + (if s.2 then 1 else -1))

/-- the sides of a patch without a neighbour, in the order x lower, x upper, y lower, y upper -/
noncomputable def openSides (D : Box) (mask : ℚ → ℚ → Bool) (p : P2) : List (Fin 2 × Bool) := by
  classical exact [(0, false), (0, true), (1, false), (1, true)].filter fun s => decide (¬ Inside D mask (next p s).1 (next p s).2)

theorem attach_some {nb : B2 → Int} {n : Fin 2 → Nat} {t : Nat} {smax : ℚ} : ∀ {fs : List (B2 × Fin 2 × Bool)} {ls r : List (Layer 2)},
    attach nb n t smax fs ls = some r →
      r = ls ++ (fs.filter fun f => decide (nb f.1 < 0)).map (fun f => build f.2.1 (n f.2.1) ⟨f.2.2, t, 20, 15 / 100, smax⟩) ∧
      ((fs.filter fun f => decide (nb f.1 < 0)) ≠ [] → ∀ a, t < n a)
  | [], ls, r, h => by
    simp only [attach, Option.some.injEq] at h
    simp [h]
  | f :: fs, ls, r, h => by
    simp only [attach] at h
    by_cases he : nb f.1 < 0
    · rw [if_pos he] at h
      unfold buildChecked at h
      by_cases ht : ∀ a, t < n a
      · rw [if_pos ht, Option.bind_some] at h
        obtain ⟨ls1, h1, h2⟩ := Option.bind_eq_some_iff.mp h
        have := addPml2_eq _ _ _ h1
        subst this
        obtain ⟨h3, _⟩ := attach_some h2
        rw [List.filter_cons_of_pos (by simpa using he)]
        exact ⟨by rw [h3]; simp, fun _ => ht⟩
      · rw [if_neg ht] at h
        cases h
    · rw [if_neg he] at h
      rw [List.filter_cons_of_neg (by simpa using he)]
      exact attach_some h

/-- the entry of the table at a face -/
theorem face_open (D : Box) (mask : ℚ → ℚ → Bool) (ps : List P2) (h : create D mask = some ps) (p : P2) (hp : p ∈ ps) :
    ∀ f ∈ faces, (neighbour D ps p f.1).getD (-1) < 0 ↔ ¬ Inside D mask (next p f.2).1 (next p f.2).2 := by
  intro f hf
  have hn := mask_neighbours D mask ps h p hp f.1
  have hs : ((p.ix : Int) + (stepOf2 f.1).1, (p.iy : Int) + (stepOf2 f.1).2) = next p f.2 := by
    simp only [faces, List.mem_cons, List.not_mem_nil, or_false] at hf
    rcases hf with rfl | rfl | rfl | rfl <;> simp [stepOf2, next]
  rw [← hs, ← hn.2]
  have hc := neighbour_cases D mask p (by rw [← create_eq h]; exact hp) f.1
  rw [← create_eq h] at hc
  rcases hc with h' | ⟨q, hq, h'⟩
  · rw [h']; simp
  · rw [h']
    simp

/-- **C74.** If the layers of a patch can be set up, they are exactly one layer at every side without a neighbour. -/
theorem mask_layers (D : Box) (mask : ℚ → ℚ → Bool) (ps : List P2) (h : create D mask = some ps) (p : P2) (hp : p ∈ ps) (t : Nat) (smax : ℚ)
    (ls : List (Layer 2)) (hl : layers D ps t smax p = some ls) :
    ls = (openSides D mask p).map fun s => build s.1 (![D.nx, D.ny] s.1) ⟨s.2, t, 20, 15 / 100, smax⟩ := by
  obtain ⟨h1, _⟩ := attach_some hl
  have hf := face_open D mask ps h p hp
  rw [h1, List.nil_append]
  have e : openSides D mask p = (faces.filter fun f => decide ((neighbour D ps p f.1).getD (-1) < 0)).map Prod.snd := by
    classical
    unfold openSides
    rw [show [((0 : Fin 2), false), (0, true), (1, false), (1, true)] = faces.map Prod.snd from rfl, List.filter_map]
    congr 1
    apply List.filter_congr
    intro f hff
    simp only [Function.comp]
    exact decide_eq_decide.mpr (hf f hff).symm
  rw [e, List.map_map]
  rfl

/-- **C74.** The layers of a patch can be set up exactly if it has no open side at all, or the layer fits into the patch and no axis of the patch is
open at both ends. -/
theorem mask_accepted_partial (D : Box) (mask : ℚ → ℚ → Bool) (ps : List P2) (h : create D mask = some ps) (p : P2) (hp : p ∈ ps) (t : Nat) (smax : ℚ) :
    (layers D ps t smax p).isSome ↔ openSides D mask p = [] ∨
      ((t < D.nx ∧ t < D.ny) ∧ ∀ a, ¬ ((a, false) ∈ openSides D mask p ∧ (a, true) ∈ openSides D mask p)) := by
  classical
  have hf := face_open D mask ps h p hp
  have f1 := hf (.xmin, 0, false) (by decide)
  have f2 := hf (.xmax, 0, true) (by decide)
  have f3 := hf (.ymin, 1, false) (by decide)
  have f4 := hf (.ymax, 1, true) (by decide)
  simp only at f1 f2 f3 f4
  have ht : (∀ a : Fin 2, t < ![D.nx, D.ny] a) ↔ t < D.nx ∧ t < D.ny := by simp [Fin.forall_fin_two]
  unfold layers faces openSides
  simp only [attach, List.filter_cons, List.filter_nil, f1, f2, f3, f4]
  by_cases o1 : Inside D mask (next p (0, false)).1 (next p (0, false)).2 <;>
  by_cases o2 : Inside D mask (next p (0, true)).1 (next p (0, true)).2 <;>
  by_cases o3 : Inside D mask (next p (1, false)).1 (next p (1, false)).2 <;>
  by_cases o4 : Inside D mask (next p (1, true)).1 (next p (1, true)).2 <;>
  by_cases hn : t < D.nx ∧ t < D.ny <;>
  simp [o1, o2, o3, o4, hn, buildChecked, ht, addPml2, build, Fin.forall_fin_two]

/-- **C74 is not met**: the documentation promises a layer at every face without a neighbour, but a patch that is open at both ends of an axis, as in a
channel one patch wide, stops the start with a failed assertion, whatever the thickness. -/
theorem narrow_mask_fails (D : Box) (mask : ℚ → ℚ → Bool) (ps : List P2) (h : create D mask = some ps) (p : P2) (hp : p ∈ ps) (t : Nat) (smax : ℚ)
    (a : Fin 2) (h1 : ¬ Inside D mask (next p (a, false)).1 (next p (a, false)).2) (h2 : ¬ Inside D mask (next p (a, true)).1 (next p (a, true)).2) :
    layers D ps t smax p = none := by
  classical
  have m1 : (a, false) ∈ openSides D mask p := by
    unfold openSides
    fin_cases a <;> simp_all
  have m2 : (a, true) ∈ openSides D mask p := by
    unfold openSides
    fin_cases a <;> simp_all
  rw [← Option.not_isSome_iff_eq_none, mask_accepted_partial D mask ps h p hp]
  rintro (h0 | ⟨_, h0⟩)
  · rw [h0] at m1; simp at m1
  · exact h0 a ⟨m1, m2⟩

theorem attach_eq {nb : B2 → Int} {np n i : Fin 2 → Nat} {bc : Fin 2 → Bool → Bool} (t : Nat) (smax : ℚ) : ∀ {fs : List (B2 × Fin 2 × Bool)}
    (ls : List (Layer 2)), (∀ f ∈ fs, nb f.1 < 0 ↔ edge np i bc f.2 = true) →
    attach nb n t smax fs ls = initPml addPml2 np n i bc t smax (fs.map Prod.snd) ls
  | [], ls, _ => rfl
  | f :: fs, ls, h => by
    simp only [attach, initPml, List.map_cons]
    have ih := fun ls => attach_eq (n := n) t smax (fs := fs) ls fun g hg => h g (List.mem_cons_of_mem _ hg)
    by_cases he : nb f.1 < 0
    · rw [if_pos he, if_pos ((h f List.mem_cons_self).mp he)]
      congr 1
      funext r
      exact ih r
    · rw [if_neg he, if_neg fun h' => he ((h f List.mem_cons_self).mpr h')]
      exact ih ls

/-- **C74.** A mask that holds everywhere gives the plain simulation with absorbing ends on all sides: the same patches with the same indices and
neighbours, and the same layers. -/
theorem mask_full (D : Box) (hx : 0 < D.npx) (hy : 0 < D.npy) :
    create D (fun _ _ => true) = some (createPatches2 D.npx D.npy) ∧
    ∀ p ∈ createPatches2 D.npx D.npy, ∀ t smax,
      layers D (createPatches2 D.npx D.npy) t smax p =
        initPml2 ![D.npx, D.npy] ![D.nx, D.ny] ![p.ix, p.iy] (fun _ _ => true) t smax := by
  have hall : (places D).filter (at' D fun _ _ => true) = places D := List.filter_eq_self.mpr fun _ _ => rfl
  have hc : (chosen D fun _ _ => true).map (fun p => (p.ix, p.iy)) = (createPatches2 D.npx D.npy).map fun p => (p.ix, p.iy) := by
    rw [chosen_coords, hall]
    unfold places createPatches2
    rw [List.map_flatMap]
    congr 1
    funext j
    rw [List.map_map]
    rfl
  have hi : (createPatches2 D.npx D.npy).map P2.index = List.range (createPatches2 D.npx D.npy).length := by
    have hlen : ∀ m, ((List.range m).flatMap fun j => (List.range D.npx).map fun i => i + j * D.npx) = List.range (m * D.npx) := by
      intro m
      induction m with
      | zero => simp
      | succ m ih =>
        rw [List.range_succ, List.flatMap_append, ih, Nat.succ_mul, List.range_add]
        simp [Nat.add_comm]
    have e : (createPatches2 D.npx D.npy).map P2.index = List.range (D.npy * D.npx) := by
      rw [← hlen]
      unfold createPatches2
      rw [List.map_flatMap]
      congr 1
      funext j
      rw [List.map_map]
      rfl
    rw [e]
    have := congrArg List.length e
    rw [List.length_map, List.length_range] at this
    rw [this]
  have hce : chosen D (fun _ _ => true) = createPatches2 D.npx D.npy := by
    have hl : (chosen D fun _ _ => true).length = (createPatches2 D.npx D.npy).length := by
      have := congrArg List.length hc
      simpa using this
    apply List.ext_getElem? fun k => ?_
    have hk1 := congrArg (·[k]?) hc
    have hk2 : ((chosen D fun _ _ => true).map P2.index)[k]? = ((createPatches2 D.npx D.npy).map P2.index)[k]? := by
      rw [chosen_index, hi, hl]
    simp only [List.getElem?_map] at hk1 hk2
    cases h1 : (chosen D fun _ _ => true)[k]? with
    | none => rw [h1] at hk1; cases h2 : (createPatches2 D.npx D.npy)[k]? with
      | none => rfl
      | some q => rw [h2] at hk1; simp at hk1
    | some p =>
      rw [h1] at hk1 hk2
      cases h2 : (createPatches2 D.npx D.npy)[k]? with
      | none => rw [h2] at hk1; simp at hk1
      | some q =>
        rw [h2] at hk1 hk2
        simp at hk1 hk2
        obtain ⟨a, b, c⟩ := p
        obtain ⟨a', b', c'⟩ := q
        simp_all
  have hcr : create D (fun _ _ => true) = some (createPatches2 D.npx D.npy) := by
    cases h : create D (fun _ _ => true) with
    | none =>
      refine absurd ?_ ((mask_refused D _).mp h 0 0)
      refine ⟨le_rfl, by exact_mod_cast hx, le_rfl, by exact_mod_cast hy, rfl⟩
    | some ps => rw [create_eq h, hce]
  refine ⟨hcr, fun p hp t smax => ?_⟩
  have hf := face_open D _ _ hcr p hp
  have hb := (grid_createPatches2 D.npx D.npy).bound p hp
  have i0 : ∀ i j : Int, Inside D (fun _ _ => true) i j ↔ 0 ≤ i ∧ i < D.npx ∧ 0 ≤ j ∧ j < D.npy := by
    intro i j; simp [Inside]
  have f1 := hf (.xmin, 0, false) (by decide)
  have f2 := hf (.xmax, 0, true) (by decide)
  have f3 := hf (.ymin, 1, false) (by decide)
  have f4 := hf (.ymax, 1, true) (by decide)
  simp only [i0] at f1 f2 f3 f4
  have g1 : (neighbour D (createPatches2 D.npx D.npy) p .xmin).getD (-1) < 0 ↔ p.ix = 0 := by rw [f1]; simp [next]; omega
  have g2 : (neighbour D (createPatches2 D.npx D.npy) p .xmax).getD (-1) < 0 ↔ p.ix + 1 = D.npx := by rw [f2]; simp [next]; omega
  have g3 : (neighbour D (createPatches2 D.npx D.npy) p .ymin).getD (-1) < 0 ↔ p.iy = 0 := by rw [f3]; simp [next]; omega
  have g4 : (neighbour D (createPatches2 D.npx D.npy) p .ymax).getD (-1) < 0 ↔ p.iy + 1 = D.npy := by rw [f4]; simp [next]; omega
  refine attach_eq _ _ _ fun f hf => ?_
  simp only [faces, List.mem_cons, List.not_mem_nil, or_false] at hf
  rcases hf with rfl | rfl | rfl | rfl <;> simp [edge, g1, g2, g3, g4] <;>
    exact ⟨fun h => decide_eq_true h, fun h => of_decide_eq_true h⟩

/-- **C74.** What `get_fields_2d` returns for a simulation with a mask, on any ranks and with messages in any order: in the cells of the places in the
mask the field, in the others NaN. -/
theorem mask_fields {V : Type} (D : Box) (mask : ℚ → ℚ → Bool) (ps : List P2) (h : create D mask = some ps) (hx : 0 < D.nx) (hy : 0 < D.ny)
    (zero : V) (ranks : List (List (GPatch V))) (hr : (ranks.flatten.map fun q => (⟨q.index, q.ix, q.iy⟩ : P2)).Perm ps)
    (G : Nat → Nat → V) (hG : ∀ p ∈ ranks.flatten, ∀ i j, i < D.nx → j < D.ny → p.arr i j = G (p.ix * D.nx + i) (p.iy * D.ny + j))
    (msgs : List (Nat × (Nat → Nat → V))) (hm : msgs.Perm (sent ranks)) :
    ∃ f, fieldOutput D zero ps ranks msgs = some f ∧ ∀ x y, x < D.npx * D.nx → y < D.npy * D.ny →
      (Inside D mask (x / D.nx : Nat) (y / D.ny : Nat) → f x y = some (G x y)) ∧ (¬ Inside D mask (x / D.nx : Nat) (y / D.ny : Nat) → f x y = none) := by
  have hgr := chosen_grid D mask
  rw [← create_eq h] at hgr
  obtain ⟨hin, hnd, hidx, _⟩ := mask_patches D mask ps h
  have mem : ∀ q ∈ ranks.flatten, (⟨q.index, q.ix, q.iy⟩ : P2) ∈ ps := fun q hq => hr.mem_iff.mp (List.mem_map.mpr ⟨q, hq, rfl⟩)
  have hg : GridRanks D.npx D.npy ranks := by
    refine ⟨fun q hq => hgr.bound _ (mem q hq), ?_, ?_⟩
    · have := ((hr.map fun p : P2 => (p.ix, p.iy)).nodup_iff).mpr hnd
      rwa [List.map_map] at this
    · have h2 : (ps.map P2.index).Nodup := by rw [create_eq h, chosen_index]; exact List.nodup_range
      have := ((hr.map P2.index).nodup_iff).mpr h2
      rwa [List.map_map] at this
  obtain ⟨f, hf, hv⟩ := get_fields2 D.npx D.npy D.nx D.ny true zero ranks hg (by simp) G hG msgs hm
  refine ⟨fun x y => if domainMask D ps x y then some (f x y) else none, by simp [fieldOutput, hf, blank], fun x y hxx hyy => ?_⟩
  have hc := mask_cells D mask ps h hx hy x y
  refine ⟨fun hi => ?_, fun hi => ?_⟩
  · dsimp only
    rw [if_pos (hc.mpr hi)]
    congr 1
    refine (hv x y hxx hyy).1 ?_
    obtain ⟨p, hp, e1, e2⟩ := (hin _ _).mp hi
    obtain ⟨q, hq, rfl⟩ := List.mem_map.mp (hr.mem_iff.mpr hp)
    exact ⟨q, hq, e1, e2⟩
  · exact if_neg fun h' => hi (hc.mp h')

/-- **C74 is not met**: `ExtractSpeciesDensity` with a slice that does not choose all cells stops with an IndexError in a simulation with a mask. -/
theorem mask_density_slice_fails {V : Type} (D : Box) (ps : List P2) (mx my : Nat) (density : Nat → Nat → V)
    (h : mx < D.npx * D.nx ∨ my < D.npy * D.ny) : densityOutput D ps mx my density = none := by
  unfold densityOutput blank
  rw [if_neg]
  simp only [Prod.mk.injEq]
  omega

/-- an example: a ring of 8 patches around a missing one -/
def exBox : Box := ⟨3, 3, 16, 16, 3, 3⟩
/-- the middle of the box is left out -/
def exMask : ℚ → ℚ → Bool := fun x y => !decide (1 < x ∧ x < 2 ∧ 1 < y ∧ y < 2)

example : create exBox exMask = some [⟨0, 0, 0⟩, ⟨1, 1, 0⟩, ⟨2, 2, 0⟩, ⟨3, 0, 1⟩, ⟨4, 2, 1⟩, ⟨5, 0, 2⟩, ⟨6, 1, 2⟩, ⟨7, 2, 2⟩] ∧
    neighbour exBox (chosen exBox exMask) ⟨3, 0, 1⟩ .ymax = some 5 ∧ neighbour exBox (chosen exBox exMask) ⟨3, 0, 1⟩ .xmax = some (-1) ∧
    domainMask exBox (chosen exBox exMask) 20 20 = false ∧ domainMask exBox (chosen exBox exMask) 20 15 = true ∧
    -- the corner patches have two layers, the ones between are open at both ends of an axis and stop the start
    ((layers exBox (chosen exBox exMask) 6 1 ⟨0, 0, 0⟩).map fun ls => ls.map Layer.axis) = some [0, 1] ∧
    (layers exBox (chosen exBox exMask) 6 1 ⟨3, 0, 1⟩).isNone := by decide +kernel

/-- and a mask without narrow places, an L of 12 patches: all layers can be set up, the patch at the inner corner has none -/
example : ((create ⟨4, 4, 16, 16, 4, 4⟩ fun x y => !decide (2 < x ∧ 2 < y)).map fun ps => ps.map fun p =>
    (layers ⟨4, 4, 16, 16, 4, 4⟩ ps 6 1 p).map fun ls => ls.length) =
    some [some 2, some 1, some 1, some 2, some 1, some 0, some 1, some 2, some 1, some 1, some 2, some 2] := by decide +kernel

end Verif.Mask
