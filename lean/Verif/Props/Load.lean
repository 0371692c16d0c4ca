import Verif.Model.Load
import Verif.Proofs.Particles
import Verif.Props.Particles
import Mathlib.Tactic.FieldSimp
import Mathlib.Data.Fin.VecNotation
import Mathlib.Tactic.Positivity
import Mathlib.Tactic.NormNum
import Mathlib.Algebra.Order.Floor.Ring
import Mathlib.Algebra.BigOperators.Group.List.Basic
/-!
# C54: loading particles

`load_containers`: what every container holds after the callback. `load_exactly_one`: a particle of the domain is in the box of exactly one patch, any other in none.
`load_total`: so the file is distributed completely. The speed: `load_gamma_fails`, `load_speed_fails`, `load_speed_partial`; files without momenta:
`load_no_momentum_fails`; attributes are taken from the wrong species: `load_first_species_fails`.
-/
namespace Verif.Load
open Verif.Particles

/-! ### specification -/

/-- a momentum is in the file -/
def HasU (attrs : List String) : Prop := "ux" ∈ attrs ∨ "uy" ∈ attrs ∨ "uz" ∈ attrs
instance (attrs : List String) : Decidable (HasU attrs) := by unfold HasU; infer_instance

/-- value of attribute `a` of a new particle before `inv_gamma` is set: the one in the file, or that of a fresh slot -/
def base (attrs : List String) (r : Row) (a : String) : F64 := if a ∈ attrs then r a else if a = "w" then .val 0 else .nan
/-- value of attribute `a` of a loaded particle -/
def value (sq : F64 → F64) (attrs : List String) (r : Row) (a : String) : F64 :=
  if a = "inv_gamma" ∧ HasU attrs then
    sq (fadd (fadd (fadd (.val 1) (fmul (base attrs r "ux") (base attrs r "ux"))) (fmul (base attrs r "uy") (base attrs r "uy")))
      (fmul (base attrs r "uz") (base attrs r "uz")))
  else base attrs r a

/-- container `p'` is `p` with the rows appended as living particles; the ones before are not touched -/
structure Loaded (sq : F64 → F64) (attrs : List String) (p : Parts) (rows : List Row) (p' : Parts) : Prop where
  names : p'.names = p.names
  npart : p'.npart = p.npart + rows.length
  arr : ∀ a ∈ p.names, p'.arr a = p.arr a ++ rows.map fun r => value sq attrs r a
  dead : p'.dead = p.dead ++ List.replicate rows.length false
  ids : p'.ids = p.ids ++ (List.range' p.created rows.length).map fun i => (p.rank <<< 50) ||| (p.ipatch <<< 32) ||| i
  created : p'.created = p.created + rows.length
  rank : p'.rank = p.rank
  ipatch : p'.ipatch = p.ipatch

/-- a container of the target species -/
structure Target (attrs : List String) (p : Parts) : Prop where
  cons : Consistent p
  ux : "ux" ∈ p.names
  uy : "uy" ∈ p.names
  uz : "uz" ∈ p.names
  attrs : ∀ a ∈ attrs, a ∈ p.names

/-! ### one container -/

theorem setAttrs_eq (rows : List Row) (old : String → List F64) (hn : 0 < rows.length) : ∀ (attrs : List String) (p : Parts),
    (∀ a ∈ p.names, ∃ g, p.arr a = old a ++ g ∧ g.length = rows.length) → (∀ a ∈ attrs, a ∈ p.names) →
    attrs.foldlM (setAttr rows) p = .ok { p with arr := fun a => if a ∈ attrs then old a ++ rows.map (fun r => r a) else p.arr a }
  | [], p, _, _ => by simp [pure, Except.pure]
  | a :: attrs, p, hg, ha => by
    obtain ⟨g, hg1, hg2⟩ := hg a (ha a (by simp))
    have h1 : setAttr rows p a = .ok { p with arr := fun x => if x = a then old a ++ rows.map (fun r => r a) else p.arr x } := by
      unfold setAttr
      rw [if_pos (ha a (by simp)), hg1, setFromArr_append _ _ _ hn hg2 (by simp)]
      rfl
    rw [List.foldlM_cons, h1]
    show attrs.foldlM (setAttr rows) _ = _
    rw [setAttrs_eq rows old hn attrs]
    · congr 2
      funext x
      by_cases hx : x ∈ attrs
      · simp [hx]
      · by_cases hxa : x = a
        · subst hxa; simp [hx]
        · simp [hx, hxa]
    · intro x hx
      dsimp only
      by_cases hxa : x = a
      · subst hxa
        exact ⟨rows.map (fun r => r x), by simp, by simp⟩
      · obtain ⟨g, h1, h2⟩ := hg x hx
        exact ⟨g, by simp [hxa, h1], h2⟩
    · intro x hx
      exact ha x (by simp [hx])

theorem lastN_append {n : Nat} (l r : List F64) (h : r.length = n) : lastN n (l ++ r) = r := by
  unfold lastN
  rw [List.length_append, h]
  simp

theorem loadInto_spec (sq : F64 → F64) {attrs : List String} {p : Parts} (hp : Target attrs p) (hg : "inv_gamma" ∉ attrs) (rows : List Row)
    (hc : p.created + rows.length ≤ 2 ^ 32) : ∃ p', loadInto sq attrs p rows = .ok p' ∧ Loaded sq attrs p rows p' := by
  unfold loadInto
  by_cases hn : rows.length = 0
  · rw [if_pos hn]
    have : rows = [] := List.length_eq_zero_iff.mp hn
    subst this
    exact ⟨p, rfl, ⟨rfl, by simp, by simp, by simp, by simp, by simp, rfl, rfl⟩⟩
  · rw [if_neg hn, extend_eq hp.cons (Nat.pos_of_ne_zero hn) hc]
    simp only [Bind.bind, Except.bind]
    have hpos := Nat.pos_of_ne_zero hn
    have e1 := setAttrs_eq rows p.arr hpos attrs
      { p with
        arr := fun a => if a = "w" then p.arr a ++ List.replicate rows.length (.val 0)
                      else if a ∈ p.names then p.arr a ++ List.replicate rows.length .nan else p.arr a
        ids := p.ids ++ (List.range' p.created rows.length).map
              fun i => (p.rank <<< 50) ||| (p.ipatch <<< 32) ||| i
        created := p.created + rows.length
        dead := p.dead ++ List.replicate rows.length true
        npart := rows.length + p.npart
        extended := true }
      (by
        intro a ha
        dsimp only at ha ⊢
        by_cases hw : a = "w"
        · exact ⟨_, if_pos hw, by simp⟩
        · rw [if_neg hw, if_pos ha]
          exact ⟨_, rfl, by simp⟩)
      hp.attrs
    rw [e1]
    dsimp only
    have hbase : ∀ a ∈ p.names, (if a ∈ attrs then p.arr a ++ rows.map (fun r => r a)
        else if a = "w" then p.arr a ++ List.replicate rows.length (F64.val 0)
          else if a ∈ p.names then p.arr a ++ List.replicate rows.length F64.nan else p.arr a) =
        p.arr a ++ rows.map fun r => base attrs r a := by
      intro a ha
      unfold base
      by_cases h1 : a ∈ attrs
      · simp [h1]
      · by_cases h2 : a = "w"
        · subst h2; simp [h1]
        · simp [h1, h2, ha]
    by_cases hu : "ux" ∈ attrs ∨ "uy" ∈ attrs ∨ "uz" ∈ attrs
    · rw [if_pos hu]
      have hgam : gammas sq rows.length
          { p with
            arr := fun a => if a ∈ attrs then p.arr a ++ rows.map (fun r => r a)
              else if a = "w" then p.arr a ++ List.replicate rows.length (.val 0)
                      else if a ∈ p.names then p.arr a ++ List.replicate rows.length .nan else p.arr a
            ids := p.ids ++ (List.range' p.created rows.length).map
                  fun i => (p.rank <<< 50) ||| (p.ipatch <<< 32) ||| i
            created := p.created + rows.length
            dead := p.dead ++ List.replicate rows.length true
            npart := rows.length + p.npart
            extended := true } = rows.map fun r => value sq attrs r "inv_gamma" := by
        unfold gammas
        dsimp only
        rw [hbase _ hp.ux, hbase _ hp.uy, hbase _ hp.uz, lastN_append _ _ (by simp), lastN_append _ _ (by simp), lastN_append _ _ (by simp)]
        rw [List.zipWith_map, List.map_map, List.zipWith_map_right]
        rw [List.zipWith_self]
        have : ∀ r : Row, value sq attrs r "inv_gamma" = _ := fun r => if_pos ⟨rfl, hu⟩
        simp only [this]
        rw [List.zipWith_map_left, List.zipWith_self]
        rfl
      rw [hgam, hbase _ hp.cons.2.2.2.2, setFromArr_append _ _ _ hpos (by simp) (by simp)]
      dsimp only [pure, Except.pure]
      rw [setFrom_append _ _ _ hpos (by simp)]
      refine ⟨_, rfl, ⟨rfl, Nat.add_comm _ _, ?_, rfl, rfl, rfl, rfl, rfl⟩⟩
      intro a ha
      dsimp only
      by_cases hga : a = "inv_gamma"
      · subst hga; simp
      · rw [if_neg hga, hbase a ha]
        congr 1
        apply List.map_congr_left
        intro r _
        exact (if_neg (fun h => hga h.1)).symm
    · rw [if_neg hu]
      dsimp only [pure, Except.pure]
      rw [setFrom_append _ _ _ hpos (by simp)]
      refine ⟨_, rfl, ⟨rfl, Nat.add_comm _ _, ?_, rfl, rfl, rfl, rfl, rfl⟩⟩
      intro a ha
      dsimp only
      rw [hbase a ha]
      congr 1
      apply List.map_congr_left
      intro r _
      exact (if_neg (fun h => hu h.2)).symm

theorem Loaded.target {sq : F64 → F64} {attrs : List String} {p p' : Parts} {rows : List Row} (h : Loaded sq attrs p rows p') (hp : Target attrs p) :
    Target attrs p' := by
  obtain ⟨⟨h1, h2, h3, h4, h5⟩, h6, h7, h8, h9⟩ := hp
  refine ⟨⟨?_, ?_, ?_, ?_, ?_⟩, ?_, ?_, ?_, ?_⟩
  · intro a ha
    rw [h.names] at ha
    rw [h.arr a ha, h.npart, List.length_append, h1 a ha, List.length_map]
  · rw [h.ids, h.npart]; simp [h2]
  · rw [h.dead, h.npart]; simp [h3]
  all_goals rw [h.names]; assumption

theorem Loaded.refl (sq : F64 → F64) (attrs : List String) (p : Parts) : Loaded sq attrs p [] p :=
  ⟨rfl, by simp, by simp, by simp, by simp, by simp, rfl, rfl⟩

theorem Loaded.trans {sq : F64 → F64} {attrs : List String} {p q s : Parts} {r1 r2 : List Row} (h1 : Loaded sq attrs p r1 q) (h2 : Loaded sq attrs q r2 s) :
    Loaded sq attrs p (r1 ++ r2) s := by
  refine ⟨h2.names.trans h1.names, ?_, ?_, ?_, ?_, ?_, h2.rank.trans h1.rank, h2.ipatch.trans h1.ipatch⟩
  · rw [h2.npart, h1.npart, List.length_append]; omega
  · intro a ha
    rw [h2.arr a (by rw [h1.names]; exact ha), h1.arr a ha, List.map_append, List.append_assoc]
  · rw [h2.dead, h1.dead, List.length_append, List.append_assoc, List.replicate_append_replicate]
  · rw [h2.ids, h1.ids, h1.created, h1.rank, h1.ipatch, List.length_append, List.append_assoc, ← List.map_append, List.range'_append_1]
  · rw [h2.created, h1.created, List.length_append]; omega

/-! ### all containers, all batches -/

theorem loadBatch_spec (sq : F64 → F64) {attrs : List String} (hg : "inv_gamma" ∉ attrs) (rows : List Row) : ∀ (ps : List (List Axis × Parts)),
    (∀ p ∈ ps, Target attrs p.2 ∧ p.2.created + (rows.filter (inbound p.1)).length ≤ 2 ^ 32) →
    ∃ ps', loadBatch sq attrs rows ps = .ok ps' ∧
      List.Forall₂ (fun p p' => p'.1 = p.1 ∧ Loaded sq attrs p.2 (rows.filter (inbound p.1)) p'.2) ps ps'
  | [], _ => ⟨[], rfl, List.Forall₂.nil⟩
  | p :: ps, h => by
    obtain ⟨q, h1, h2⟩ := loadInto_spec sq (h p (by simp)).1 hg (rows.filter (inbound p.1)) (h p (by simp)).2
    obtain ⟨ps', h3, h4⟩ := loadBatch_spec sq hg rows ps fun p' hp' => h p' (by simp [hp'])
    refine ⟨(p.1, q) :: ps', ?_, List.Forall₂.cons ⟨rfl, h2⟩ h4⟩
    unfold loadBatch at h3 ⊢
    rw [List.mapM_cons, h1, h3]
    rfl

theorem chunks (file : List Row) (batch : Nat) : ∀ (m s : Nat), file.length ≤ s + m * batch →
    ((List.range' s m batch).map fun s => (file.drop s).take (min (s + batch) file.length - s)).flatten = file.drop s
  | 0, s, h => by
    simp only [List.range'_zero, List.map_nil, List.flatten_nil]
    rw [List.drop_eq_nil_of_le (by omega)]
  | m + 1, s, h => by
    rw [List.range'_succ, List.map_cons, List.flatten_cons, chunks file batch m (s + batch) (by rw [Nat.succ_mul] at h; omega)]
    by_cases hb : s + batch ≤ file.length
    · rw [Nat.min_eq_left hb, Nat.add_sub_cancel_left, ← List.drop_drop, List.take_append_drop]
    · rw [Nat.min_eq_right (by omega), List.drop_eq_nil_of_le (show file.length ≤ s + batch by omega), List.append_nil]
      apply List.take_of_length_le
      rw [List.length_drop]

theorem batches_spec (sq : F64 → F64) {attrs : List String} (hg : "inv_gamma" ∉ attrs) : ∀ (bs : List (List Row)) (ps : List (List Axis × Parts)),
    (∀ p ∈ ps, Target attrs p.2 ∧ p.2.created + (bs.flatten.filter (inbound p.1)).length ≤ 2 ^ 32) →
    ∃ ps', bs.foldlM (fun ps rows => loadBatch sq attrs rows ps) ps = .ok ps' ∧
      List.Forall₂ (fun p p' => p'.1 = p.1 ∧ Loaded sq attrs p.2 (bs.flatten.filter (inbound p.1)) p'.2) ps ps'
  | [], ps, _ => ⟨ps, rfl, by
      rw [List.forall₂_same]
      exact fun p _ => ⟨rfl, Loaded.refl sq attrs p.2⟩⟩
  | rows :: bs, ps, h => by
    obtain ⟨ps1, h1, h2⟩ := loadBatch_spec sq hg rows ps fun p hp => ⟨(h p hp).1, by
      have := (h p hp).2
      rw [List.flatten_cons, List.filter_append, List.length_append] at this
      omega⟩
    have hstep : ∀ p1 ∈ ps1, Target attrs p1.2 ∧ p1.2.created + (bs.flatten.filter (inbound p1.1)).length ≤ 2 ^ 32 := by
      intro p1 hp1
      obtain ⟨i, hi, rfl⟩ := List.mem_iff_getElem.mp hp1
      have hlen := h2.length_eq
      obtain ⟨e1, e2⟩ := h2.get (hx := by omega) (hy := hi)
      simp only [List.get_eq_getElem] at e1 e2
      have hp := h ps[i] (List.getElem_mem _)
      refine ⟨e2.target hp.1, ?_⟩
      have := hp.2
      rw [List.flatten_cons, List.filter_append, List.length_append] at this
      rw [e2.created, e1]
      omega
    obtain ⟨ps2, h3, h4⟩ := batches_spec sq hg bs ps1 hstep
    refine ⟨ps2, ?_, ?_⟩
    · rw [List.foldlM_cons, h1]
      exact h3
    · rw [List.forall₂_iff_get] at h2 h4 ⊢
      refine ⟨h2.1.trans h4.1, fun i hi hi' => ?_⟩
      have a := h2.2 i hi (by rw [← h2.1]; exact hi)
      have b := h4.2 i (by rw [← h2.1]; exact hi) hi'
      refine ⟨b.1.trans a.1, ?_⟩
      rw [List.flatten_cons, List.filter_append]
      have b2 := b.2
      rw [a.1] at b2
      exact a.2.trans b2

/-- **C54** the callback, for every file, batch size, attribute order and list of patches: it succeeds, and every container holds what it held before
followed by the rows of the file in the box of its patch, each once, in the order of the file, alive and with the values of the file -/
theorem load_containers (sq : F64 → F64) {dim batch : Nat} (hb : 0 < batch) {names attrs0 attrs : List String} (hf : filterAttrs dim names attrs0 = .ok attrs)
    (file : List Row) (ps : List (List Axis × Parts))
    (h : ∀ p ∈ ps, Target attrs p.2 ∧ p.2.created + (file.filter (inbound p.1)).length ≤ 2 ^ 32) :
    ∃ ps', load sq dim batch names attrs0 file ps = .ok ps' ∧
      List.Forall₂ (fun p p' => p'.1 = p.1 ∧ Loaded sq attrs p.2 (file.filter (inbound p.1)) p'.2) ps ps' := by
  have hg : "inv_gamma" ∉ attrs := by
    unfold filterAttrs at hf
    split at hf
    · cases hf
    · cases hf
      simp
  have hc : ((starts file.length batch).map fun s => (file.drop s).take (min (s + batch) file.length - s)).flatten = file := by
    unfold starts
    rw [chunks file batch _ 0]
    · simp
    · have := Nat.div_add_mod (file.length + batch - 1) batch
      have := Nat.mod_lt (file.length + batch - 1) hb
      rw [Nat.mul_comm]
      omega
  obtain ⟨ps', h1, h2⟩ := batches_spec sq hg ((starts file.length batch).map fun s => (file.drop s).take (min (s + batch) file.length - s)) ps
    (by rw [hc]; exact h)
  rw [hc] at h2
  refine ⟨ps', ?_, h2⟩
  unfold load loadFile
  rw [hf]
  rw [List.foldlM_map] at h1
  exact h1

/-- Specification: columns a file must have -/
def required (dim : Nat) : List String := (if 1 ≤ dim then ["x"] else []) ++ (if 2 ≤ dim then ["y"] else []) ++ (if dim = 3 then ["z"] else []) ++ ["w"]

/-- Specification: the columns of a file that are loaded - attributes of the particles, but neither ids, which stay unique in this run, nor `inv_gamma`,
which follows from the momentum -/
def Column (names attrs0 : List String) (a : String) : Prop := a ∈ names ∧ a ∈ attrs0 ∧ a ≠ "_id" ∧ a ≠ "inv_gamma"

/-- **C54** which files are accepted, and which columns of them are loaded: a file without a required column is refused; any other is loaded into every
container of a species with at least the attributes of the first species, with the values of the loaded columns and fresh ids, also when the file has
columns of ids or columns that are no attributes -/
theorem load_columns (sq : F64 → F64) {dim batch : Nat} (hb : 0 < batch) (names attrs0 : List String) (file : List Row) (ps : List (List Axis × Parts)) :
    ((¬ ∀ a ∈ required dim, a ∈ names) → load sq dim batch names attrs0 file ps = .error .value) ∧
    ((∀ a ∈ required dim, a ∈ names) →
      (∀ p ∈ ps, Consistent p.2 ∧ (∀ a ∈ ["ux", "uy", "uz"], a ∈ p.2.names) ∧ (∀ a ∈ attrs0, a ≠ "_id" → a ∈ p.2.names) ∧
        p.2.created + (file.filter (inbound p.1)).length ≤ 2 ^ 32) →
      ∃ attrs ps', (∀ a, a ∈ attrs ↔ Column names attrs0 a) ∧ load sq dim batch names attrs0 file ps = .ok ps' ∧
        List.Forall₂ (fun p p' => p'.1 = p.1 ∧ Loaded sq attrs p.2 (file.filter (inbound p.1)) p'.2) ps ps') := by
  have hreq : (¬ ∀ a ∈ required dim, a ∈ names) ↔
      ((1 ≤ dim ∧ "x" ∉ names) ∨ (2 ≤ dim ∧ "y" ∉ names) ∨ (dim = 3 ∧ "z" ∉ names) ∨ "w" ∉ names) := by
    unfold required
    by_cases h1 : 1 ≤ dim <;> by_cases h2 : 2 ≤ dim <;> by_cases h3 : dim = 3 <;> simp [h1, h2, h3] <;> tauto
  constructor
  · intro h
    unfold load filterAttrs
    rw [if_pos (hreq.mp h)]
    rfl
  · intro h hp
    let attrs := names.filter fun a => decide (a ∈ attrs0) && decide (a ≠ "_id") && decide (a ≠ "inv_gamma")
    have hf : filterAttrs dim names attrs0 = .ok attrs := if_neg (fun hn => hreq.mpr hn h)
    have hm : ∀ a, a ∈ attrs ↔ Column names attrs0 a := by
      intro a
      simp only [attrs, List.mem_filter, Bool.and_eq_true, decide_eq_true_eq, Column, and_assoc]
    obtain ⟨ps', h1, h2⟩ := load_containers sq hb hf file ps fun p hpp => by
      obtain ⟨a1, a2, a3, a4⟩ := hp p hpp
      exact ⟨⟨a1, a2 _ (by simp), a2 _ (by simp), a2 _ (by simp), fun a ha => a3 a ((hm a).mp ha).2.1 ((hm a).mp ha).2.2.1⟩, a4⟩
    exact ⟨attrs, ps', hm, h1, h2⟩

/-! ### the boxes of the patches -/

/-- one axis of patch `i` of a grid: `np` patches of `n` cells of size `dx`, starting at `o`; absorbing layers at the ends, if any -/
def gridAxis (o dx : ℚ) (np n : Nat) (lo hi : Option Nat) (i : Nat) : Axis where
  x0 := x0 o dx np n i
  dx := dx
  n := n
  lo := if i = 0 then lo else none
  hi := if i + 1 = np then hi else none

/-- the part of the axis that is not in an absorbing layer; the domain begins half a cell before its first grid point -/
def InDomain (o dx : ℚ) (np n : Nat) (lo hi : Option Nat) (q : ℚ) : Prop :=
  o - dx / 2 + lo.getD 0 * dx ≤ q ∧ q < o + np * n * dx - dx / 2 - hi.getD 0 * dx
instance (o dx : ℚ) (np n : Nat) (lo hi : Option Nat) (q : ℚ) : Decidable (InDomain o dx np n lo hi q) := by unfold InDomain; infer_instance

theorem pmin_eq (x dx : ℚ) (t : Option Nat) : pmin x dx t = x + t.getD 0 * dx := by
  cases t <;> simp [pmin]
theorem pmax_eq (x dx : ℚ) (n : Nat) (t : Option Nat) : pmax x dx n t = x + (n - 1) * dx - t.getD 0 * dx := by
  cases t <;> simp [pmax]

theorem grid_inb {o dx : ℚ} {np n : Nat} (hnp : 0 < np) (lo hi : Option Nat) (i : Nat) (q : ℚ) :
    (gridAxis o dx np n lo hi i).inb (.val q) = true ↔
      o + i * (n * dx) + (if i = 0 then lo else none).getD 0 * dx - dx / 2 ≤ q ∧
      q < o + (i + 1) * (n * dx) - (if i + 1 = np then hi else none).getD 0 * dx - dx / 2 := by
  have hx : x0 o dx np n i = o + i * (n * dx) := by
    unfold x0
    have : (np : ℚ) ≠ 0 := by exact_mod_cast hnp.ne'
    field_simp
  unfold Axis.inb gridAxis
  dsimp only
  rw [pmin_eq, pmax_eq, hx, Bool.and_eq_true, decide_eq_true_eq, decide_eq_true_eq]
  have e : o + (i : ℚ) * (n * dx) + (n - 1) * dx - (if i + 1 = np then hi else none).getD 0 * dx + dx / 2 =
      o + (i + 1) * (n * dx) - (if i + 1 = np then hi else none).getD 0 * dx - dx / 2 := by ring
  rw [e]

/-- boxes of two patches do not meet -/
theorem axis_unique {o dx : ℚ} {np n : Nat} (hdx : 0 < dx) (hn : 0 < n) (hnp : 0 < np) (lo hi : Option Nat) {i j : Nat} {q : ℚ}
    (h1 : (gridAxis o dx np n lo hi i).inb (.val q) = true) (h2 : (gridAxis o dx np n lo hi j).inb (.val q) = true) : i = j := by
  rw [grid_inb hnp] at h1 h2
  have hw : 0 < (n : ℚ) * dx := by
    have : (0 : ℚ) < n := by exact_mod_cast hn
    positivity
  have nn : ∀ t : Option Nat, (0 : ℚ) ≤ t.getD 0 * dx := fun t => mul_nonneg (by positivity) hdx.le
  have a1 : (i : ℚ) * (n * dx) < (j + 1) * (n * dx) := by
    have := nn (if i = 0 then lo else none)
    have := nn (if j + 1 = np then hi else none)
    linarith [h1.1, h2.2]
  have a2 : (j : ℚ) * (n * dx) < (i + 1) * (n * dx) := by
    have := nn (if j = 0 then lo else none)
    have := nn (if i + 1 = np then hi else none)
    linarith [h2.1, h1.2]
  have b1 : (i : ℚ) < j + 1 := lt_of_mul_lt_mul_right a1 hw.le
  have b2 : (j : ℚ) < i + 1 := lt_of_mul_lt_mul_right a2 hw.le
  have c1 : i < j + 1 := by exact_mod_cast b1
  have c2 : j < i + 1 := by exact_mod_cast b2
  omega

/-- the boxes cover the domain -/
theorem axis_cover {o dx : ℚ} {np n : Nat} (hdx : 0 < dx) (hn : 0 < n) (hnp : 0 < np) (lo hi : Option Nat) {q : ℚ}
    (h : InDomain o dx np n lo hi q) : ∃ i < np, (gridAxis o dx np n lo hi i).inb (.val q) = true := by
  have hw : 0 < (n : ℚ) * dx := by
    have : (0 : ℚ) < n := by exact_mod_cast hn
    positivity
  have nn : ∀ t : Option Nat, (0 : ℚ) ≤ t.getD 0 * dx := fun t => mul_nonneg (by positivity) hdx.le
  obtain ⟨h1, h2⟩ := h
  have hy0 : 0 ≤ (q - o + dx / 2) / (n * dx) := by
    apply div_nonneg _ hw.le
    have := nn lo
    linarith
  have hy1 : (q - o + dx / 2) / (n * dx) < np := by
    rw [div_lt_iff₀ hw]
    have := nn hi
    linarith
  have f1 := Nat.floor_le hy0
  have f2 := Nat.lt_floor_add_one ((q - o + dx / 2) / (n * dx))
  rw [le_div_iff₀ hw] at f1
  rw [div_lt_iff₀ hw] at f2
  have hi' : ⌊(q - o + dx / 2) / (n * dx)⌋₊ < np := (Nat.floor_lt hy0).mpr hy1
  refine ⟨_, hi', ?_⟩
  generalize ⌊(q - o + dx / 2) / (n * dx)⌋₊ = i at *
  rw [grid_inb hnp]
  constructor
  · split
    · rename_i e
      subst e
      simp only [Nat.cast_zero, zero_mul, add_zero]
      linarith
    · simp only [Option.getD_none, Nat.cast_zero, zero_mul, add_zero]
      linarith
  · split
    · rename_i e
      have : (np : ℚ) = i + 1 := by exact_mod_cast e.symm
      rw [this] at h2
      linarith
    · simp only [Option.getD_none, Nat.cast_zero, zero_mul, sub_zero]
      linarith

/-- a box is part of the domain -/
theorem axis_in {o dx : ℚ} {np n : Nat} (hdx : 0 < dx) (hnp : 0 < np) {lo hi : Option Nat} (hlo : lo.getD 0 < n) (hhi : hi.getD 0 < n) {i : Nat} (hi' : i < np)
    {q : ℚ} (h : (gridAxis o dx np n lo hi i).inb (.val q) = true) : InDomain o dx np n lo hi q := by
  rw [grid_inb hnp] at h
  have l1 : ((lo.getD 0 : Nat) : ℚ) * dx ≤ n * dx := mul_le_mul_of_nonneg_right (by exact_mod_cast hlo.le) hdx.le
  have l2 : ((hi.getD 0 : Nat) : ℚ) * dx ≤ n * dx := mul_le_mul_of_nonneg_right (by exact_mod_cast hhi.le) hdx.le
  have hw : 0 ≤ (n : ℚ) * dx := mul_nonneg (by positivity) hdx.le
  obtain ⟨h1, h2⟩ := h
  constructor
  · split at h1
    · rename_i e
      subst e
      simp only [Nat.cast_zero, zero_mul, add_zero] at h1
      linarith
    · rename_i e
      have : (1 : ℚ) ≤ i := by exact_mod_cast Nat.pos_of_ne_zero e
      have := mul_le_mul_of_nonneg_right this hw
      simp only [Option.getD_none, Nat.cast_zero, zero_mul, add_zero] at h1
      linarith
  · split at h2
    · rename_i e
      have : (np : ℚ) = i + 1 := by exact_mod_cast e.symm
      rw [this]
      linarith
    · rename_i e
      have : (i : ℚ) + 2 ≤ np := by exact_mod_cast (by omega : i + 2 ≤ np)
      have := mul_le_mul_of_nonneg_right this hw
      simp only [Option.getD_none, Nat.cast_zero, zero_mul, sub_zero] at h2
      linarith

/-- a grid of patches in `k` dimensions -/
structure GridPar (k : Nat) where
  o : Fin k → ℚ
  dx : Fin k → ℚ
  np : Fin k → Nat
  n : Fin k → Nat
  lo : Fin k → Option Nat
  hi : Fin k → Option Nat
  dx_pos : ∀ a, 0 < dx a
  n_pos : ∀ a, 0 < n a
  np_pos : ∀ a, 0 < np a
  lo_lt : ∀ a, (lo a).getD 0 < n a
  hi_lt : ∀ a, (hi a).getD 0 < n a

/-- patch `c` of the grid -/
def GridPar.box {k : Nat} (G : GridPar k) (c : Fin k → Nat) : List Axis := List.ofFn fun a => gridAxis (G.o a) (G.dx a) (G.np a) (G.n a) (G.lo a) (G.hi a) (c a)

/-- Specification: the column of the file with the positions along an axis -/
def column (a : Nat) : String := if a = 0 then "x" else if a = 1 then "y" else "z"

theorem coordName_column (a : Nat) : coordName a = column a := by
  match a with
  | 0 => rfl
  | 1 => rfl
  | a + 2 => simp [coordName, column]

/-- the particle has a position, and it is in the domain -/
def GridPar.Inside {k : Nat} (G : GridPar k) (r : Row) : Prop :=
  ∀ a : Fin k, ∃ q, r (column a) = .val q ∧ InDomain (G.o a) (G.dx a) (G.np a) (G.n a) (G.lo a) (G.hi a) q

theorem inbound_box {k : Nat} (G : GridPar k) (c : Fin k → Nat) (r : Row) : inbound (G.box c) r = true ↔
    ∀ a : Fin k, (gridAxis (G.o a) (G.dx a) (G.np a) (G.n a) (G.lo a) (G.hi a) (c a)).inb (r (column a)) = true := by
  unfold inbound GridPar.box
  simp only [coordName_column]
  rw [List.all_eq_true]
  constructor
  · intro h a
    have := h (gridAxis (G.o a) (G.dx a) (G.np a) (G.n a) (G.lo a) (G.hi a) (c a), a.val) (by
      rw [List.mk_mem_zipIdx_iff_getElem?]
      simp)
    exact this
  · rintro h ⟨A, i⟩ hA
    rw [List.mk_mem_zipIdx_iff_getElem?] at hA
    rw [List.getElem?_ofFn] at hA
    by_cases hi : i < k
    · rw [dif_pos hi] at hA
      cases hA
      exact h ⟨i, hi⟩
    · rw [dif_neg hi] at hA
      cases hA

/-- **C54** every particle of the domain is in the box of exactly one patch, every other particle (outside, in an absorbing layer, or without a position) in none -/
theorem load_exactly_one {k : Nat} (G : GridPar k) (r : Row) :
    (G.Inside r → ∃! c : Fin k → Nat, (∀ a, c a < G.np a) ∧ inbound (G.box c) r = true) ∧
    (¬ G.Inside r → ∀ c : Fin k → Nat, (∀ a, c a < G.np a) → inbound (G.box c) r = false) := by
  constructor
  · intro h
    have : ∀ a : Fin k, ∃ i, i < G.np a ∧ (gridAxis (G.o a) (G.dx a) (G.np a) (G.n a) (G.lo a) (G.hi a) i).inb (r (column a)) = true := by
      intro a
      obtain ⟨q, hq, hd⟩ := h a
      rw [hq]
      exact axis_cover (G.dx_pos a) (G.n_pos a) (G.np_pos a) _ _ hd
    obtain ⟨c, hc⟩ := Classical.axiomOfChoice this
    refine ⟨c, ⟨fun a => (hc a).1, (inbound_box G c r).mpr fun a => (hc a).2⟩, ?_⟩
    rintro c' ⟨_, h2⟩
    rw [inbound_box] at h2
    funext a
    obtain ⟨q, hq, _⟩ := h a
    have e1 := h2 a
    have e2 := (hc a).2
    rw [hq] at e1 e2
    exact axis_unique (G.dx_pos a) (G.n_pos a) (G.np_pos a) _ _ e1 e2
  · intro h c hc
    rw [← Bool.not_eq_true]
    intro hi
    apply h
    rw [inbound_box] at hi
    intro a
    have := hi a
    cases hr : r (column a) with
    | nan => rw [hr] at this; simp [Axis.inb] at this
    | val q =>
      rw [hr] at this
      exact ⟨q, rfl, axis_in (G.dx_pos a) (G.np_pos a) (G.lo_lt a) (G.hi_lt a) (hc a) this⟩

/-- **C54** the patch that loads a particle is the one it is in: the particles in the box of patch `c` are those of the domain whose distance from the
lower edge of the domain (half a cell before its first grid point) is from `c` to less than `c + 1` patches, along every axis -/
theorem load_right_patch {k : Nat} (G : GridPar k) (r : Row) (c : Fin k → Nat) (hc : ∀ a, c a < G.np a) :
    inbound (G.box c) r = true ↔ G.Inside r ∧ ∀ a : Fin k, ∃ q, r (column a) = .val q ∧
      c a * (G.n a * G.dx a) ≤ q - (G.o a - G.dx a / 2) ∧ q - (G.o a - G.dx a / 2) < (c a + 1) * (G.n a * G.dx a) := by
  have nn : ∀ (a : Fin k) (t : Option Nat), (0 : ℚ) ≤ t.getD 0 * G.dx a := fun a t => mul_nonneg (by positivity) (G.dx_pos a).le
  rw [inbound_box]
  constructor
  · intro h
    refine ⟨?_, fun a => ?_⟩
    · intro a
      have := h a
      cases hr : r (column a) with
      | nan => rw [hr] at this; simp [Axis.inb] at this
      | val q =>
        rw [hr] at this
        exact ⟨q, rfl, axis_in (G.dx_pos a) (G.np_pos a) (G.lo_lt a) (G.hi_lt a) (hc a) this⟩
    · have := h a
      cases hr : r (column a) with
      | nan => rw [hr] at this; simp [Axis.inb] at this
      | val q =>
        rw [hr, grid_inb (G.np_pos a)] at this
        have h1 := nn a (if c a = 0 then G.lo a else none)
        have h2 := nn a (if c a + 1 = G.np a then G.hi a else none)
        exact ⟨q, rfl, by linarith [this.1], by linarith [this.2]⟩
  · rintro ⟨h, h'⟩ a
    obtain ⟨q, hq, d1, d2⟩ := h a
    obtain ⟨q', hq', e1, e2⟩ := h' a
    have := hq.symm.trans hq'
    cases this
    rw [hq, grid_inb (G.np_pos a)]
    constructor
    · split
      · rename_i e
        rw [e]
        push_cast
        linarith
      · simp only [Option.getD_none, Nat.cast_zero, zero_mul, add_zero]
        linarith
    · split
      · rename_i e
        have : (G.np a : ℚ) = c a + 1 := by exact_mod_cast e.symm
        rw [this] at d2
        linarith
      · simp only [Option.getD_none, Nat.cast_zero, zero_mul, sub_zero]
        linarith

open Classical in
theorem sum_one {α : Type} : ∀ (cs : List α) (c : α), cs.Nodup → c ∈ cs → (cs.map fun c' => if c' = c then 1 else 0).sum = 1
  | [], _, _, h => by simp at h
  | d :: cs, c, hnd, h => by
    rw [List.nodup_cons] at hnd
    by_cases e : d = c
    · subst e
      have : (cs.map fun c' => if c' = d then 1 else 0) = cs.map fun _ => 0 := by
        apply List.map_congr_left
        intro c' hc'
        rw [if_neg]
        rintro rfl
        exact hnd.1 hc'
      rw [List.map_cons, this]
      simp
    · rw [List.map_cons, if_neg e, List.sum_cons, sum_one cs c hnd.2 (by
        rcases List.mem_cons.mp h with h | h
        · exact absurd h.symm e
        · exact h)]

open Classical in
/-- **C54** the numbers add up: for any list of all patches of the grid, the patches together get as many particles as the file has in the domain -/
theorem load_total {k : Nat} (G : GridPar k) (cs : List (Fin k → Nat)) (hnd : cs.Nodup) (hcs : ∀ c, c ∈ cs ↔ ∀ a, c a < G.np a) (file : List Row) :
    (cs.map fun c => (file.filter (inbound (G.box c))).length).sum = (file.filter fun r => decide (G.Inside r)).length := by
  induction file with
  | nil => simp
  | cons r file ih =>
    have e1 : (cs.map fun c => ((r :: file).filter (inbound (G.box c))).length) =
        cs.map fun c => (if inbound (G.box c) r = true then 1 else 0) + (file.filter (inbound (G.box c))).length := by
      apply List.map_congr_left
      intro c _
      rw [List.filter_cons]
      split <;> simp <;> omega
    have e2 : (cs.map fun c => if inbound (G.box c) r = true then 1 else 0).sum = if G.Inside r then 1 else 0 := by
      obtain ⟨h1, h2⟩ := load_exactly_one G r
      by_cases hin : G.Inside r
      · rw [if_pos hin]
        obtain ⟨c, ⟨hc1, hc2⟩, hc3⟩ := h1 hin
        have : (cs.map fun c' => if inbound (G.box c') r = true then 1 else 0) = cs.map fun c' => if c' = c then 1 else 0 := by
          apply List.map_congr_left
          intro c' hc'
          by_cases e : c' = c
          · rw [e, if_pos hc2, if_pos rfl]
          · rw [if_neg e, if_neg]
            intro hb
            exact e (hc3 c' ⟨(hcs c').mp hc', hb⟩)
        rw [this]
        convert sum_one cs c hnd ((hcs c).mpr hc1)
      · rw [if_neg hin]
        have : (cs.map fun c' => if inbound (G.box c') r = true then 1 else 0) = cs.map fun _ => 0 := by
          apply List.map_congr_left
          intro c' hc'
          rw [h2 hin c' ((hcs c').mp hc')]
          rfl
        rw [this]
        simp
    rw [e1, List.sum_map_add, e2, ih, List.filter_cons]
    by_cases hin : G.Inside r
    · simp [hin]; omega
    · simp [hin]

/-! ### speed -/

/-- `sq` is the square root: not negative, and its square is the argument -/
def IsSqrt (sq : F64 → F64) (x : ℚ) : Prop := ∃ s, 0 ≤ s ∧ s * s = x ∧ sq (.val x) = .val s

/-- a row with momenta -/
def momRow (ux uy uz : ℚ) : Row := fun a => if a = "ux" then .val ux else if a = "uy" then .val uy else if a = "uz" then .val uz else .val 0

theorem loaded_gamma {sq : F64 → F64} {attrs : List String} (hx : "ux" ∈ attrs) (hy : "uy" ∈ attrs) (hz : "uz" ∈ attrs) {r : Row} {ux uy uz : ℚ}
    (h1 : r "ux" = .val ux) (h2 : r "uy" = .val uy) (h3 : r "uz" = .val uz) :
    value sq attrs r "inv_gamma" = sq (.val (1 + ux * ux + uy * uy + uz * uz)) := by
  have : value sq attrs r "inv_gamma" = _ := if_pos ⟨rfl, Or.inl hx⟩
  rw [this]
  unfold base
  rw [if_pos hx, if_pos hy, if_pos hz, h1, h2, h3]
  rfl

/-- the stored `inv_gamma` of a loaded particle is gamma and not 1/gamma: wrong for every particle that moves, whatever its momentum -/
theorem load_gamma_fails {sq : F64 → F64} {attrs : List String} (hx : "ux" ∈ attrs) (hy : "uy" ∈ attrs) (hz : "uz" ∈ attrs) {r : Row} {ux uy uz : ℚ}
    (h1 : r "ux" = .val ux) (h2 : r "uy" = .val uy) (h3 : r "uz" = .val uz) (hs : IsSqrt sq (1 + ux * ux + uy * uy + uz * uz))
    (hu : ux ≠ 0 ∨ uy ≠ 0 ∨ uz ≠ 0) :
    ∃ g, value sq attrs r "inv_gamma" = .val g ∧ 1 < g ∧ g * g ≠ 1 / (1 + ux * ux + uy * uy + uz * uz) := by
  obtain ⟨s, s0, ss, e⟩ := hs
  have hpos : 0 < ux * ux + uy * uy + uz * uz := by
    have a := mul_self_nonneg ux
    have b := mul_self_nonneg uy
    have c := mul_self_nonneg uz
    rcases hu with h | h | h
    · have := mul_self_pos.mpr h; linarith
    · have := mul_self_pos.mpr h; linarith
    · have := mul_self_pos.mpr h; linarith
  refine ⟨s, (loaded_gamma hx hy hz h1 h2 h3).trans e, ?_, ?_⟩
  · by_contra hle
    have : s * s ≤ 1 := by nlinarith
    linarith
  · rw [ss]
    intro h
    have hb : (1 : ℚ) < 1 + ux * ux + uy * uy + uz * uz := by linarith
    rw [eq_div_iff (by linarith)] at h
    nlinarith

/-- the speed of a loaded particle, `u * inv_gamma` in units of `c`, is not below `c` unless the particle is slow: squared it is `u² (1 + u²)` -/
theorem load_speed_partial {sq : F64 → F64} {attrs : List String} (hx : "ux" ∈ attrs) (hy : "uy" ∈ attrs) (hz : "uz" ∈ attrs) {r : Row} {ux uy uz : ℚ}
    (h1 : r "ux" = .val ux) (h2 : r "uy" = .val uy) (h3 : r "uz" = .val uz) (hs : IsSqrt sq (1 + ux * ux + uy * uy + uz * uz)) :
    ∃ g, value sq attrs r "inv_gamma" = .val g ∧
      (((ux * g) ^ 2 + (uy * g) ^ 2 + (uz * g) ^ 2 < 1) ↔ (ux * ux + uy * uy + uz * uz) * (1 + (ux * ux + uy * uy + uz * uz)) < 1) := by
  obtain ⟨s, s0, ss, e⟩ := hs
  refine ⟨s, (loaded_gamma hx hy hz h1 h2 h3).trans e, ?_⟩
  have : (ux * s) ^ 2 + (uy * s) ^ 2 + (uz * s) ^ 2 = (ux * ux + uy * uy + uz * uz) * (s * s) := by ring
  rw [this, ss]
  have : (ux * ux + uy * uy + uz * uz) * (1 + ux * ux + uy * uy + uz * uz) =
    (ux * ux + uy * uy + uz * uz) * (1 + (ux * ux + uy * uy + uz * uz)) := by ring
  rw [this]

/-- **C54 fails**: a particle with momentum 4/3 (speed 0.8 c) is loaded with a speed of 20/9 c -/
theorem load_speed_fails (sq : F64 → F64) (hs : IsSqrt sq (25 / 9)) :
    value sq ["x", "y", "w", "ux", "uy", "uz"] (momRow (4 / 3) 0 0) "inv_gamma" = .val (5 / 3) ∧ (1 : ℚ) < 4 / 3 * (5 / 3) := by
  obtain ⟨s, s0, ss, e⟩ := hs
  have h : s = 5 / 3 := by nlinarith
  subst h
  refine ⟨?_, by norm_num⟩
  rw [loaded_gamma (ux := 4 / 3) (uy := 0) (uz := 0) (by simp) (by simp) (by simp) rfl rfl rfl, ← e]
  norm_num

/-- **C54 fails** for files with positions and weights only, which the documentation allows: momenta and `inv_gamma` are NaN -/
theorem load_no_momentum_fails (sq : F64 → F64) (r : Row) :
    filterAttrs 2 ["x", "y", "w"] (baseNames ++ ["_id"]) = .ok ["x", "y", "w"] ∧
    value sq ["x", "y", "w"] r "ux" = .nan ∧ value sq ["x", "y", "w"] r "uy" = .nan ∧ value sq ["x", "y", "w"] r "uz" = .nan ∧
    value sq ["x", "y", "w"] r "inv_gamma" = .nan := by
  refine ⟨by decide, ?_, ?_, ?_, ?_⟩ <;> simp [value, base, HasU]

theorem setAttr_missing {rows : List Row} {p : Parts} {a : String} (h : a ∉ p.names) : setAttr rows p a = .error .value := if_neg h

/-- the attributes are those of the first species: a file with optical depths, first species a QED electron, loaded into a species without optical depth -
the program stops; and into a QED species when the first is not one - the optical depths of the file are dropped -/
theorem load_first_species_fails :
    filterAttrs 2 ["x", "y", "w", "tau"] (baseNames ++ ["_id", "tau"]) = .ok ["x", "y", "w", "tau"] ∧
    (∀ rows p, "tau" ∉ Parts.names p → setAttr rows p "tau" = .error .value) ∧
    filterAttrs 2 ["x", "y", "w", "tau"] (baseNames ++ ["_id"]) = .ok ["x", "y", "w"] :=
  ⟨by decide, fun _ _ h => setAttr_missing h, by decide⟩

/-! ### concrete cases -/

/-- two patches of 4 cells of size 1, a layer of thickness 1 on the lower side -/
def sampleGrid : GridPar 1 where
  o := ![0]
  dx := ![1]
  np := ![2]
  n := ![4]
  lo := ![some 1]
  hi := ![none]
  dx_pos := by simp
  n_pos := by simp
  np_pos := by simp
  lo_lt := by simp
  hi_lt := by simp

example : sampleGrid.Inside (fun _ => .val (7 / 2)) ∧ ¬ sampleGrid.Inside (fun _ => .val 0) ∧
    inbound (sampleGrid.box ![1]) (fun _ => .val (7 / 2)) = true ∧ inbound (sampleGrid.box ![0]) (fun _ => .val (7 / 2)) = false := by
  refine ⟨?_, ?_, ?_, ?_⟩
  · intro a
    match a with
    | 0 => exact ⟨7 / 2, rfl, by decide +kernel⟩
  · intro h
    obtain ⟨q, hq, h1, _⟩ := h 0
    cases hq
    revert h1
    decide +kernel
  · decide +kernel
  · decide +kernel

/-- a target container -/
example : Target ["x", "y", "w", "ux", "uy", "uz"]
    { names := baseNames, arr := fun _ => [], ids := [], dead := [], npart := 0, created := 0, extended := false, rank := 0, ipatch := 0 } := by
  refine ⟨⟨fun _ _ => rfl, rfl, rfl, by decide, by decide⟩, by decide, by decide, by decide, by decide⟩

/-- the hypotheses of `load_columns`: a file with ids and a foreign column, first species with an `_id` -/
example : (∀ a ∈ required 2, a ∈ ["x", "y", "w", "ux", "_id", "colour"]) ∧ ¬ (∀ a ∈ required 3, a ∈ ["x", "y", "w", "ux", "_id", "colour"]) ∧
    (∀ a ∈ baseNames ++ ["_id"], a ≠ "_id" → a ∈ baseNames) ∧ Column ["x", "y", "w", "ux", "_id", "colour"] (baseNames ++ ["_id"]) "ux" ∧
    ¬ Column ["x", "y", "w", "ux", "_id", "colour"] (baseNames ++ ["_id"]) "_id" := by
  refine ⟨by decide, by decide, by decide, ?_, ?_⟩
  · unfold Column; decide
  · unfold Column; decide

/-- 2 × 3 patches of 4 × 2 cells, a layer of thickness 1 below along y -/
def sampleGrid2 : GridPar 2 where
  o := ![0, 1]
  dx := ![1, 1 / 2]
  np := ![2, 3]
  n := ![4, 2]
  lo := ![none, some 1]
  hi := ![none, none]
  dx_pos := by decide +kernel
  n_pos := by decide
  np_pos := by decide
  lo_lt := by decide
  hi_lt := by decide

/-- the particle at (7/2, 9/4) is in patch (1, 1), not in patch (0, 1) -/
example : inbound (sampleGrid2.box ![1, 1]) (fun s => if s = "x" then .val (7 / 2) else .val (9 / 4)) = true ∧
    inbound (sampleGrid2.box ![0, 1]) (fun s => if s = "x" then .val (7 / 2) else .val (9 / 4)) = false := by decide +kernel

end Verif.Load
