import Verif.Spec.Neutral
import Verif.Proofs.Matter
/-!
# Lemmas for C106: a step of the undivided simulation depends on the charged matter only
-/
namespace Verif.Neutral
open Verif.Maxwell Verif.Pusher Verif.Deposit Verif.Shape Verif.WholeRun Verif.PicStep Verif.Symmetry Verif.Matter

variable {k : Nat}

theorem SameCharged.trans {L : Fin k → ℚ} {a b c : List (Kind × List (Ptc k))} (h : SameCharged L a b) (h' : SameCharged L b c) :
    SameCharged L a c := fun F hF h0 => (h F hF h0).trans (h' F hF h0)
theorem SameCharged.symm {L : Fin k → ℚ} {a b : List (Kind × List (Ptc k))} (h : SameCharged L a b) : SameCharged L b a :=
  fun F hF h0 => (h F hF h0).symm
/-- the same matter is the same charged matter -/
theorem SameCharged.of_matter {L : Fin k → ℚ} {a b : List (Kind × List (Ptc k))} (h : SameMatter L a b) : SameCharged L a b :=
  fun F hF _ => h F hF

section
variable {Φ : Phys k} {np n : Fin k → Nat} {d : Fin k → ℚ} (H : Weighs Φ np n d)
  (hcur : ∀ a b, SameCharged (len np n d) a b → Slow d Φ.dt a → Slow d Φ.dt b → Φ.cur a = Φ.cur b)
include H

theorem push_charged {G : GF k} (hG : G.Per np n) {a b : List (Kind × List (Ptc k))} (h : SameCharged (len np n d) a b) :
    SameCharged (len np n d) (a.map fun s => (s.1, s.2.map (pushed Φ s.1 G))) (b.map fun s => (s.1, s.2.map (pushed Φ s.1 G))) := by
  intro F hF h0
  have key : ∀ cl : List (Kind × List (Ptc k)), amount F (cl.map fun s => (s.1, s.2.map (pushed Φ s.1 G)))
      = amount (fun κ x u => F κ (pushed Φ κ G (unitPtc x u)).pos (motion (pushed Φ κ G (unitPtc x u)))) cl := by
    intro cl
    unfold amount
    rw [List.map_map]
    congr 1
    refine List.map_congr_left fun s _ => ?_
    show (List.map _ (s.2.map (pushed Φ s.1 G))).sum = _
    rw [List.map_map]
    rfl
  rw [key, key]
  refine h _ (fun κ x u z => ?_) fun κ x u hq => h0 κ _ _ hq
  have hm : (pushed Φ κ G (unitPtc (fun i => x i + z i * len np n d i) u)).mom = (pushed Φ κ G (unitPtc x u)).mom :=
    (H.fate hG κ (p := unitPtc (fun i => x i + z i * len np n d i) u) (q := unitPtc x u) ⟨rfl, fun i => ⟨z i, rfl⟩⟩).1
  have hm' : motion (pushed Φ κ G (unitPtc (fun i => x i + z i * len np n d i) u)) = motion (pushed Φ κ G (unitPtc x u)) := by
    unfold motion; rw [hm]
  have hx : (pushed Φ κ G (unitPtc (fun i => x i + z i * len np n d i) u)).pos
      = fun i => (pushed Φ κ G (unitPtc x u)).pos i + z i * len np n d i := by
    funext i
    rw [pushed_pos, pushed_pos, hm]
    show x i + z i * len np n d i + _ + _ = x i + _ + _ + _
    have : (unitPtc (fun i => x i + z i * len np n d i) u).mom = (unitPtc x u).mom := rfl
    rw [this]; ring
  rw [hm', hx, hF]

include hcur

/-- one step: the same fields and the same charged matter give the same fields and the same charged matter -/
theorem step_charged {W W' : World k} (hper : W.fld.Per np n) (hf : W'.fld = W.fld)
    (hn : Slow d Φ.dt (W.step Φ).cloud) (hn' : Slow d Φ.dt (W'.step Φ).cloud) (h : SameCharged (len np n d) W.cloud W'.cloud) :
    (W'.step Φ).fld = (W.step Φ).fld ∧ SameCharged (len np n d) (W.step Φ).cloud (W'.step Φ).cloud := by
  have hp : (midField Φ W.fld).Per np n := (hper.stepE H.fe _).stepB H.fb _
  have hc : SameCharged (len np n d) (W.step Φ).cloud (W'.step Φ).cloud := by
    show SameCharged _ (W.cloud.map fun s => (s.1, s.2.map (pushed Φ s.1 (midField Φ W.fld))))
      (W'.cloud.map fun s => (s.1, s.2.map (pushed Φ s.1 (midField Φ W'.fld))))
    rw [hf]
    exact push_charged H hp h
  refine ⟨?_, hc⟩
  show GF.step Φ.FE Φ.FB Φ.dt (Φ.cur (W'.step Φ).cloud) W'.fld = GF.step Φ.FE Φ.FB Φ.dt (Φ.cur (W.step Φ).cloud) W.fld
  rw [hcur _ _ hc hn hn', hf]

theorem run_charged {W W' : World k} (hper : ∀ i, (World.run Φ W i).fld.Per np n) (hf : W'.fld = W.fld)
    (hs : ∀ i, Slow d Φ.dt (World.run Φ W i).cloud) (hs' : ∀ i, Slow d Φ.dt (World.run Φ W' i).cloud)
    (h : SameCharged (len np n d) W.cloud W'.cloud) (i : Nat) :
    (World.run Φ W' i).fld = (World.run Φ W i).fld ∧ SameCharged (len np n d) (World.run Φ W i).cloud (World.run Φ W' i).cloud := by
  induction i with
  | zero => exact ⟨hf, h⟩
  | succ i ih => exact step_charged H hcur (hper i) ih.1 (hs (i + 1)) (hs' (i + 1)) ih.2
end

/-! ## the currents of the 2D and the 3D simulation -/

theorem j2_neutral (N : Fin 2 → Nat) (d : Fin 2 → ℚ) (dt : ℚ) (p : Ptc 2) (f : Fin 3) (c : Fin 2 → Int) : j2 N d dt 0 p f c = 0 := by
  unfold j2
  match f with
  | 0 => dsimp only; ring
  | 1 => dsimp only; ring
  | 2 => dsimp only; ring

theorem j3_neutral (N : Fin 3 → Nat) (d : Fin 3 → ℚ) (dt : ℚ) (p : Ptc 3) (f : Fin 3) (c : Fin 3 → Int) : j3 N d dt 0 p f c = 0 := by
  unfold j3
  match f with
  | 0 => dsimp only; ring
  | 1 => dsimp only; ring
  | 2 => dsimp only; ring

theorem cur_charged2 {np n : Fin 2 → Nat} (hN : ∀ a, 0 < np a * n a) {d : Fin 2 → ℚ} (hd : ∀ a, 0 < d a) {dt : ℚ} (hdt : dt ≠ 0)
    (a b : List (Kind × List (Ptc 2))) (h : SameCharged (len np n d) a b) (ha : Slow d dt a) (hb : Slow d dt b) :
    cur2 (fun a => np a * n a) d dt a = cur2 (fun a => np a * n a) d dt b := by
  funext f c
  rw [cur_total2 hN hd hdt ha, cur_total2 hN hd hdt hb]
  rw [total_amount fun q p => j2_unit _ d dt q p f c, total_amount fun q p => j2_unit _ d dt q p f c]
  exact h _ (fun κ x u z => j2_shift hN hd dt κ.q x (unitPtc x u).mom z f c) fun κ x u hq => by rw [hq]; exact j2_neutral _ d dt _ f c

theorem cur_charged3 {np n : Fin 3 → Nat} (hN : ∀ a, 2 ≤ np a * n a) {d : Fin 3 → ℚ} (hd : ∀ a, 0 < d a) {dt : ℚ} (hdt : dt ≠ 0)
    (a b : List (Kind × List (Ptc 3))) (h : SameCharged (len np n d) a b) (ha : Slow d dt a) (hb : Slow d dt b) :
    cur3 (fun a => np a * n a) d dt a = cur3 (fun a => np a * n a) d dt b := by
  have hN' : ∀ a, 0 < np a * n a := fun a => lt_of_lt_of_le (by omega) (hN a)
  funext f c
  rw [cur_total3 hN hd hdt ha, cur_total3 hN hd hdt hb]
  rw [total_amount fun q p => j3_unit _ d dt q p f c, total_amount fun q p => j3_unit _ d dt q p f c]
  exact h _ (fun κ x u z => j3_shift hN' hd dt κ.q x (unitPtc x u).mom z f c) fun κ x u hq => by rw [hq]; exact j3_neutral _ d dt _ f c

end Verif.Neutral
