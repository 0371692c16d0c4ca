import Verif.Spec.Window
import Verif.Proofs.Causal2
import Verif.Proofs.Tiled
/-!
# Lemmas for C110: two boxes as copies in a common larger box
-/
namespace Verif.Window
open Verif.Maxwell Verif.Pusher Verif.Deposit Verif.WholeRun Verif.Symmetry Verif.Causal Verif.Tiled Verif.Matter

variable {k : Nat}

/-- the cells of a ring of `N` cells per axis that stand for cells of a window -/
def ring (N : Fin k → Nat) (R : (Fin k → Int) → Prop) (c : Fin k → Int) : Prop := R fun a => c a % (N a : Int)

theorem ring_region (N : Fin k → Nat) (R : (Fin k → Int) → Prop) : Region N (ring N R) := by
  intro c c' h
  unfold ring
  rw [show (fun a => c a % (N a : Int)) = fun a => c' a % (N a : Int) from funext fun a => h a]

theorem cell_shift {d : Fin k → ℚ} (hd : ∀ a, 0 < d a) (N : Fin k → Nat) (x : Fin k → ℚ) (z : Fin k → ℤ) (a : Fin k) :
    cellOf d (fun a => x a + z a * (N a * d a)) a = cellOf d x a + z a * N a := by
  unfold cellOf
  have h := (hd a).ne'
  have : (x a + z a * (N a * d a)) / d a + 1 / 2 = x a / d a + 1 / 2 + ((z a * (N a : ℤ) : ℤ) : ℚ) := by
    push_cast
    field_simp
    ring
  rw [this, Int.floor_add_intCast]

theorem wrap_eq (N : Fin k → Nat) (d : Fin k → ℚ) (p : Ptc k) :
    (wrap N d p).pos = fun a => p.pos a + ((-(cellOf d p.pos a / (N a : Int)) : ℤ) : ℚ) * (N a * d a) := by
  funext a
  unfold wrap
  push_cast
  ring

theorem cell_wrap {d : Fin k → ℚ} (hd : ∀ a, 0 < d a) (N : Fin k → Nat) (p : Ptc k) :
    cellOf d (wrap N d p).pos = fun a => cellOf d p.pos a % (N a : Int) := by
  funext a
  rw [wrap_eq, cell_shift hd N p.pos (fun a => -(cellOf d p.pos a / (N a : Int)))]
  have := Int.mul_ediv_add_emod (cellOf d p.pos a) (N a : Int)
  linarith

theorem same_wrap (N : Fin k → Nat) (d : Fin k → ℚ) (p : Ptc k) : SamePtc (fun a => N a * d a) p (wrap N d p) :=
  ⟨rfl, fun i => ⟨cellOf d p.pos i / (N i : Int), by unfold wrap; dsimp only; ring⟩⟩

theorem wrap_same {d : Fin k → ℚ} (hd : ∀ a, 0 < d a) {N : Fin k → Nat} (hN : ∀ a, 0 < N a) {p q : Ptc k}
    (h : SamePtc (fun a => N a * d a) p q) : wrap N d p = wrap N d q := by
  obtain ⟨x, m⟩ := p
  obtain ⟨y, m'⟩ := q
  obtain ⟨rfl, hz⟩ := h
  choose z hz using hz
  obtain rfl : x = fun a => y a + z a * (N a * d a) := funext hz
  unfold wrap
  congr 1
  funext a
  dsimp only
  rw [cell_shift hd N y z]
  have h0 : (N a : Int) ≠ 0 := by exact_mod_cast (hN a).ne'
  rw [Int.add_mul_ediv_right _ _ h0]
  push_cast
  ring

open Classical in
theorem seen_eq {d : Fin k → ℚ} (hd : ∀ a, 0 < d a) (N : Fin k → Nat) (R : (Fin k → Int) → Prop) (l : List (Ptc k)) :
    seen N d R l = (l.filter fun p => decide (ring N R (cellOf d p.pos))).map (wrap N d) := by
  unfold seen
  rw [List.filter_map]
  congr 1
  refine List.filter_congr fun p _ => ?_
  show decide (R (cellOf d (wrap N d p).pos)) = _
  rw [cell_wrap hd]
  rfl

theorem map_wrap {d : Fin k → ℚ} (hd : ∀ a, 0 < d a) {N : Fin k → Nat} (hN : ∀ a, 0 < N a) {a b : List (Ptc k)}
    (h : SameParticles (fun a => N a * d a) a b) : (a.map (wrap N d)).Perm (b.map (wrap N d)) := by
  obtain ⟨b', p, f⟩ := h
  refine List.Perm.trans (.of_eq ?_) (p.map _)
  clear p
  induction f with
  | nil => rfl
  | cons h1 _ ih => rw [List.map_cons, List.map_cons, wrap_same hd hN h1, ih]

theorem same_map_wrap (N : Fin k → Nat) (d : Fin k → ℚ) (l : List (Ptc k)) : SameParticles (fun a => N a * d a) l (l.map (wrap N d)) := by
  refine ⟨l.map (wrap N d), .refl _, ?_⟩
  induction l with
  | nil => exact .nil
  | cons p l ih => exact .cons (same_wrap N d p) ih

/-- the same particles show the same in a window -/
theorem seen_same {d : Fin k → ℚ} (hd : ∀ a, 0 < d a) {N : Fin k → Nat} (hN : ∀ a, 0 < N a) (R : (Fin k → Int) → Prop) {a b : List (Ptc k)}
    (h : SameParticles (fun a => N a * d a) a b) : (seen N d R a).Perm (seen N d R b) :=
  (map_wrap hd hN h).filter _

/-! ## copies -/

/-- all copies of the particles of a box of lengths `L`, `m i` along axis `i` -/
noncomputable def copies (m : Fin k → Nat) (L : Fin k → ℚ) (l : List (Ptc k)) : List (Ptc k) :=
  l.flatMap fun p => (Finset.univ : Finset ((i : Fin k) → Fin (m i))).toList.map fun z => ⟨fun i => p.pos i + (z i : Nat) * L i, p.mom⟩

noncomputable def copiesOf (m : Fin k → Nat) (L : Fin k → ℚ) (cl : List (Kind × List (Ptc k))) : List (Kind × List (Ptc k)) :=
  cl.map fun s => (s.1, copies m L s.2)

noncomputable def tile (m : Fin k → Nat) (L : Fin k → ℚ) (W : World k) : World k := ⟨W.fld, copiesOf m L W.cloud⟩

theorem copies_tiles (m : Fin k → Nat) (L : Fin k → ℚ) (cl : List (Kind × List (Ptc k))) : Tiles m L cl (copiesOf m L cl) := by
  intro F _
  unfold amount copiesOf
  rw [List.map_map]
  congr 1
  refine List.map_congr_left fun s _ => ?_
  show ((copies m L s.2).map _).sum = _
  unfold copies
  induction s.2 with
  | nil => rfl
  | cons p l ih =>
    rw [List.flatMap_cons, List.map_append, List.sum_append, ih, List.map_cons, List.sum_cons]
    congr 1
    rw [List.map_map, Finset.mul_sum, Finset.sum_map_toList (s := Finset.univ) (f := _)]
    rfl

theorem slow_copies {m : Fin k → Nat} {L d : Fin k → ℚ} {dt : ℚ} {cl : List (Kind × List (Ptc k))} (h : Slow d dt cl) :
    Slow d dt (copiesOf m L cl) := by
  intro s hs p hp i
  obtain ⟨s0, h0, rfl⟩ := List.mem_map.mp hs
  obtain ⟨q, hq, hz⟩ := List.mem_flatMap.mp hp
  obtain ⟨z, -, rfl⟩ := List.mem_map.mp hz
  exact h s0 h0 q hq i

/-- the copy of a particle at its place in the larger box -/
theorem wrap_copy {d : Fin k → ℚ} (hd : ∀ a, 0 < d a) {N m M : Fin k → Nat} (hN : ∀ a, 0 < N a) (hM : ∀ a, M a = m a * N a) (p : Ptc k)
    (z : Fin k → ℤ) : wrap M d ⟨fun a => p.pos a + z a * (N a * d a), p.mom⟩ =
      ⟨fun a => (wrap N d p).pos a + (((cellOf d p.pos a / (N a : Int) + z a) % (m a : Int) : Int) : ℚ) * (N a * d a), p.mom⟩ := by
  unfold wrap
  congr 1
  funext a
  dsimp only
  rw [cell_shift hd N p.pos z]
  have h0 : (N a : Int) ≠ 0 := by exact_mod_cast (hN a).ne'
  have e : (cellOf d p.pos a + z a * (N a : Int)) / (M a : Int) = (cellOf d p.pos a / (N a : Int) + z a) / (m a : Int) := by
    rw [hM a]
    push_cast
    rw [mul_comm (m a : Int), ← Int.ediv_ediv_of_nonneg (by positivity : (0 : Int) ≤ N a), Int.add_mul_ediv_right _ _ h0]
  rw [e, Int.emod_def, hM a]
  push_cast
  ring

open Classical in
/-- the copies show in a window of the first box what the particles show -/
theorem seen_copies {d : Fin k → ℚ} (hd : ∀ a, 0 < d a) {N m M : Fin k → Nat} (hN : ∀ a, 0 < N a) (hm : ∀ a, 0 < m a) (hM : ∀ a, M a = m a * N a)
    {R : (Fin k → Int) → Prop} (hR : InBox N R) (l : List (Ptc k)) :
    (seen M d R (copies m (fun a => N a * d a) l)).Perm (seen N d R l) := by
  induction l with
  | nil => exact .refl _
  | cons p l ih =>
    have e1 : seen M d R (copies m (fun a => N a * d a) (p :: l)) =
        seen M d R ((Finset.univ : Finset ((i : Fin k) → Fin (m i))).toList.map fun z => ⟨fun i => p.pos i + (z i : Nat) * (N i * d i), p.mom⟩) ++
        seen M d R (copies m (fun a => N a * d a) l) := by
      unfold copies seen
      rw [List.flatMap_cons, List.map_append, List.filter_append]
    have e2 : seen N d R (p :: l) = seen N d R [p] ++ seen N d R l := by
      unfold seen
      rw [← List.filter_append]
      rfl
    rw [e1, e2]
    refine List.Perm.append ?_ ih
    -- the number of the copy that lies in the first box
    have hm' : ∀ a, (0 : Int) < m a := fun a => by exact_mod_cast hm a
    have lt : ∀ a, ((-(cellOf d p.pos a / (N a : Int))) % (m a : Int)).toNat < m a := fun a => by
      have h0 := Int.emod_nonneg (-(cellOf d p.pos a / (N a : Int))) (hm' a).ne'
      have h1 := Int.emod_lt_of_pos (-(cellOf d p.pos a / (N a : Int))) (hm' a)
      omega
    let z0 : (i : Fin k) → Fin (m i) := fun a => ⟨_, lt a⟩
    have hz0 : ∀ z : (i : Fin k) → Fin (m i), (∀ a, (cellOf d p.pos a / (N a : Int) + ((z a : Nat) : Int)) % (m a : Int) = 0) ↔ z = z0 := by
      intro z
      have key : ∀ a, ((cellOf d p.pos a / (N a : Int) + ((z a : Nat) : Int)) % (m a : Int) = 0 ↔ z a = z0 a) := by
        intro a
        have hlt := (z a).2
        have h0 := Int.emod_nonneg (-(cellOf d p.pos a / (N a : Int))) (hm' a).ne'
        have hz : z a = z0 a ↔ ((z a : Nat) : Int) = (-(cellOf d p.pos a / (N a : Int))) % (m a : Int) := by
          rw [Fin.ext_iff]
          show (z a : Nat) = ((-(cellOf d p.pos a / (N a : Int))) % (m a : Int)).toNat ↔ _
          omega
        rw [hz]
        have hself : ((z a : Nat) : Int) % (m a : Int) = (z a : Nat) := Int.emod_eq_of_lt (by omega) (by omega)
        have e : ((z a : Nat) : Int) = (-(cellOf d p.pos a / (N a : Int))) % (m a : Int) ↔
            ((z a : Nat) : Int) % (m a : Int) = (-(cellOf d p.pos a / (N a : Int))) % (m a : Int) := by rw [hself]
        rw [e, Int.emod_eq_emod_iff_emod_sub_eq_zero]
        rw [show cellOf d p.pos a / (N a : Int) + ((z a : Nat) : Int) = ((z a : Nat) : Int) - -(cellOf d p.pos a / (N a : Int)) by ring]
      constructor
      · intro h
        funext a
        exact (key a).mp (h a)
      · rintro rfl a
        exact (key a).mpr rfl
    have hw : ∀ z : (i : Fin k) → Fin (m i), wrap M d ⟨fun i => p.pos i + (z i : Nat) * (N i * d i), p.mom⟩ =
        ⟨fun a => (wrap N d p).pos a + (((cellOf d p.pos a / (N a : Int) + ((z a : Nat) : Int)) % (m a : Int) : Int) : ℚ) * (N a * d a), p.mom⟩ := by
      intro z
      exact wrap_copy hd hN hM p (fun a => ((z a : Nat) : Int))
    have hw0 : wrap M d ⟨fun i => p.pos i + (z0 i : Nat) * (N i * d i), p.mom⟩ = wrap N d p := by
      rw [hw z0]
      have h := (hz0 z0).mpr rfl
      refine Planar.ptc_ext (funext fun a => ?_) rfl
      show (wrap N d p).pos a + (((cellOf d p.pos a / (N a : Int) + ((z0 a : Nat) : Int)) % (m a : Int) : Int) : ℚ) * (N a * d a) = (wrap N d p).pos a
      rw [h a]
      push_cast
      ring
    have hin : ∀ z : (i : Fin k) → Fin (m i), R (cellOf d (wrap M d ⟨fun i => p.pos i + (z i : Nat) * (N i * d i), p.mom⟩).pos) ↔
        z = z0 ∧ R (cellOf d (wrap N d p).pos) := by
      intro z
      constructor
      · intro h
        have hz : z = z0 := by
          refine (hz0 z).mp fun a => ?_
          have hb := (hR _ h a).2
          rw [hw z] at hb
          dsimp only at hb
          rw [cell_shift hd N (wrap N d p).pos (fun a => (cellOf d p.pos a / (N a : Int) + ((z a : Nat) : Int)) % (m a : Int)), cell_wrap hd] at hb
          have hn : (0 : Int) < N a := by exact_mod_cast hN a
          have h1 := Int.emod_nonneg (cellOf d p.pos a) hn.ne'
          have h2 := Int.emod_nonneg (cellOf d p.pos a / (N a : Int) + ((z a : Nat) : Int)) (hm' a).ne'
          by_contra hne
          have h3 : 1 ≤ (cellOf d p.pos a / (N a : Int) + ((z a : Nat) : Int)) % (m a : Int) := by omega
          nlinarith
        subst hz
        rw [hw0] at h
        exact ⟨rfl, h⟩
      · rintro ⟨rfl, h⟩
        rw [hw0]
        exact h
    unfold seen
    rw [List.map_map, List.filter_map]
    have hf : ((Finset.univ : Finset ((i : Fin k) → Fin (m i))).toList.filter
        ((fun p => decide (R (cellOf d p.pos))) ∘ (wrap M d ∘ fun z => ⟨fun i => p.pos i + (z i : Nat) * (N i * d i), p.mom⟩))).Perm
        ([z0].filter fun _ => decide (R (cellOf d (wrap N d p).pos))) := by
      refine (List.perm_ext_iff_of_nodup ((Finset.nodup_toList _).filter _) ((List.nodup_singleton _).filter _)).mpr fun z => ?_
      rw [List.mem_filter, List.mem_filter, List.mem_singleton]
      simp only [Function.comp, decide_eq_true_eq, Finset.mem_toList, Finset.mem_univ, true_and]
      exact hin z
    refine (hf.map _).trans (.of_eq ?_)
    by_cases h : R (cellOf d (wrap N d p).pos)
    · simp [h, hw0]
    · simp [h]

/-! ## a step of the copies -/

theorem mul_len {np n : Fin k → Nat} (d : Fin k → ℚ) : (fun a => ((np a * n a : Nat) : ℚ) * d a) = len np n d := by
  funext a
  unfold len
  push_cast
  ring

section
variable {Φ Φ' : Phys k} {np n m : Fin k → Nat} {d : Fin k → ℚ} (H : Weighs Φ np n d)
  (hFE : Φ'.FE = Φ.FE) (hFB : Φ'.FB = Φ.FB) (hsee : Φ'.see = Φ.see) (hrs : Φ'.rs = Φ.rs) (hdt : Φ'.dt = Φ.dt)
  (hcur : ∀ a b, Tiles m (len np n d) a b → Slow d Φ.dt a → Slow d Φ.dt b → Φ'.cur b = Φ.cur a)
include H

theorem push_copy {G : GF k} (hG : G.Per np n) (κ : Kind) (p : Ptc k) (z : (i : Fin k) → Fin (m i)) :
    pushed Φ κ G ⟨fun i => p.pos i + (z i : Nat) * len np n d i, p.mom⟩ =
      ⟨fun i => (pushed Φ κ G p).pos i + (z i : Nat) * len np n d i, (pushed Φ κ G p).mom⟩ := by
  have hm : (pushed Φ κ G ⟨fun i => p.pos i + (z i : Nat) * len np n d i, p.mom⟩).mom = (pushed Φ κ G p).mom :=
    (H.fate hG κ (p := ⟨fun i => p.pos i + (z i : Nat) * len np n d i, p.mom⟩) (q := p) ⟨rfl, fun i => ⟨((z i : Nat) : ℤ), by push_cast; rfl⟩⟩).1
  refine Planar.ptc_ext ?_ hm
  funext i
  rw [pushed_pos, hm]
  show p.pos i + _ + _ + _ = (pushed Φ κ G p).pos i + _
  rw [pushed_pos]
  ring

theorem push_copies {G : GF k} (hG : G.Per np n) (κ : Kind) (l : List (Ptc k)) :
    (copies m (len np n d) l).map (pushed Φ κ G) = copies m (len np n d) (l.map (pushed Φ κ G)) := by
  unfold copies
  rw [List.map_flatMap, List.flatMap_map]
  congr 1
  funext p
  rw [List.map_map]
  refine List.map_congr_left fun z _ => ?_
  exact push_copy H hG κ p z

include hFE hFB hsee hrs hdt hcur

theorem tile_step {W : World k} (hper : W.fld.Per np n) (hn : Slow d Φ.dt (W.step Φ).cloud) :
    (tile m (len np n d) W).step Φ' = tile m (len np n d) (W.step Φ) := by
  have hp : (midField Φ W.fld).Per np n := (hper.stepE H.fe _).stepB H.fb _
  have hmid : midField Φ' W.fld = midField Φ W.fld := by unfold midField; rw [hFE, hFB, hdt]
  have hpush : ∀ κ G p, pushed Φ' κ G p = pushed Φ κ G p := fun κ G p => by unfold pushed; rw [hsee, hrs, hdt]
  have hc : ((tile m (len np n d) W).step Φ').cloud = copiesOf m (len np n d) (W.step Φ).cloud := by
    show (copiesOf m (len np n d) W.cloud).map (fun s => (s.1, s.2.map (pushed Φ' s.1 (midField Φ' W.fld))))
      = copiesOf m (len np n d) (W.cloud.map fun s => (s.1, s.2.map (pushed Φ s.1 (midField Φ W.fld))))
    rw [hmid]
    unfold copiesOf
    rw [List.map_map, List.map_map]
    refine List.map_congr_left fun s _ => ?_
    show (s.1, (copies m (len np n d) s.2).map (pushed Φ' s.1 (midField Φ W.fld))) = (s.1, copies m (len np n d) (s.2.map _))
    rw [← push_copies H hp s.1 s.2]
    refine congrArg (Prod.mk s.1) (List.map_congr_left fun p _ => hpush _ _ _)
  have hf : ((tile m (len np n d) W).step Φ').fld = (W.step Φ).fld := by
    show GF.step Φ'.FE Φ'.FB Φ'.dt (Φ'.cur ((tile m (len np n d) W).step Φ').cloud) W.fld = GF.step Φ.FE Φ.FB Φ.dt (Φ.cur (W.step Φ).cloud) W.fld
    rw [hc, hcur _ _ (copies_tiles m _ _) hn (slow_copies hn), hFE, hFB, hdt]
  show World.mk _ _ = World.mk _ _
  exact congrArg₂ World.mk hf hc

theorem tile_run {W : World k} (hper : ∀ i, (World.run Φ W i).fld.Per np n) (hs : ∀ i, Slow d Φ.dt (World.run Φ W i).cloud) (i : Nat) :
    World.run Φ' (tile m (len np n d) W) i = tile m (len np n d) (World.run Φ W i) := by
  induction i with
  | zero => rfl
  | succ i ih =>
    show (World.run Φ' (tile m (len np n d) W) i).step Φ' = _
    rw [ih]
    exact tile_step H hFE hFB hsee hrs hdt hcur (hper i) (hs (i + 1))
end

/-! ## agreement in the common box -/

theorem ring_box {N M : Fin k → Nat} {R : (Fin k → Int) → Prop} (hR : InBox N R) (hM : ∀ a, N a ≤ M a) {c : Fin k → Int} (h : R c) : ring M R c := by
  unfold ring
  have : (fun a => c a % (M a : Int)) = c := by
    funext a
    have := hR c h a
    have := hM a
    exact Int.emod_eq_of_lt (by omega) (by omega)
  rw [this]
  exact h

theorem ring_inner {N M : Fin k → Nat} {R : (Fin k → Int) → Prop} (hR : InBox N R) (hM : ∀ a, N a ≤ M a) {r : Nat} {c : Fin k → Int}
    (h : ring M (inner r R) c) : inner r (ring M R) c := by
  intro c' hc
  have h1 : R fun a => c' a - c a + c a % (M a : Int) := h _ fun a => by
    show |c' a - c a + c a % (M a : Int) - c a % (M a : Int)| ≤ r
    rw [add_sub_cancel_right]
    exact hc a
  refine ((ring_region M R) _ c' fun a => ?_).mp (ring_box hR hM h1)
  show (c' a - c a + c a % (M a : Int)) % (M a : Int) = c' a % (M a : Int)
  rw [Int.add_emod_emod, sub_add_cancel]

theorem inner_box {N : Fin k → Nat} {R : (Fin k → Int) → Prop} (hR : InBox N R) (r : Nat) : InBox N (inner r R) := fun c h => hR c (inner_self h)

open Classical in
/-- particles that show the same in a window of the box are the same particles there -/
theorem same_seen {d : Fin k → ℚ} (hd : ∀ a, 0 < d a) {N : Fin k → Nat} (hN : ∀ a, 0 < N a) {R : (Fin k → Int) → Prop} {a b : List (Ptc k)} :
    (seen N d R a).Perm (seen N d R b) ↔ SameParticles (fun i => N i * d i) (a.filter fun p => decide (ring N R (cellOf d p.pos)))
      (b.filter fun p => decide (ring N R (cellOf d p.pos))) := by
  rw [seen_eq hd, seen_eq hd]
  constructor
  · intro h
    exact (same_map_wrap N d _).trans ((SameParticles.of_perm h).trans (same_map_wrap N d _).symm)
  · exact map_wrap hd hN

open Classical in
/-- what the copies of two clouds show in the common box -/
theorem cloud_copies {d : Fin k → ℚ} (hd : ∀ a, 0 < d a) {N N' m m' M : Fin k → Nat} (hN : ∀ a, 0 < N a) (hN' : ∀ a, 0 < N' a)
    (hm : ∀ a, 0 < m a) (hm' : ∀ a, 0 < m' a) (hM : ∀ a, M a = m a * N a) (hM' : ∀ a, M a = m' a * N' a)
    {R : (Fin k → Int) → Prop} (hR : InBox N R) (hR' : InBox N' R) {a b : List (Kind × List (Ptc k))} :
    SameSeen N N' d R a b ↔ SameCloud (fun i => M i * d i) (within d (ring M R) (copiesOf m (fun i => N i * d i) a))
      (within d (ring M R) (copiesOf m' (fun i => N' i * d i) b)) := by
  have hMp : ∀ a, 0 < M a := fun a => by rw [hM a]; exact Nat.mul_pos (hm a) (hN a)
  unfold SameSeen SameCloud within copiesOf
  rw [List.forall₂_map_left_iff, List.forall₂_map_left_iff, List.forall₂_map_right_iff, List.forall₂_map_right_iff]
  have e : ∀ s s' : Kind × List (Ptc k), (s.1 = s'.1 ∧ (seen N d R s.2).Perm (seen N' d R s'.2)) ↔
      (s.1 = s'.1 ∧ SameParticles (fun i => M i * d i) ((copies m (fun i => N i * d i) s.2).filter fun p => decide (ring M R (cellOf d p.pos)))
        ((copies m' (fun i => N' i * d i) s'.2).filter fun p => decide (ring M R (cellOf d p.pos)))) := by
    intro s s'
    rw [← same_seen hd hMp]
    have h1 := seen_copies hd hN hm hM hR s.2
    have h2 := seen_copies hd hN' hm' hM' hR' s'.2
    exact ⟨fun h => ⟨h.1, h1.trans (h.2.trans h2.symm)⟩, fun h => ⟨h.1, h1.symm.trans (h.2.trans h2)⟩⟩
  exact ⟨fun h => h.imp fun s s' => (e s s').mp, fun h => h.imp fun s s' => (e s s').mpr⟩

end Verif.Window
