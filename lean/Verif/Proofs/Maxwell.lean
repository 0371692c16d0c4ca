import Verif.Model.Maxwell
import Verif.Proofs.SyncGlobal
/-!
# The field solver on patches and on the undivided grid
-/
namespace Verif.Maxwell
open SyncFields Neighbors

/-- one cell down along axis `a` -/
def dn {k : Nat} (a : Fin k) (v : Fin k → Int) : Fin k → Int := fun x => if x = a then v x - 1 else v x
/-- one cell up along axis `a` -/
def up {k : Nat} (a : Fin k) (v : Fin k → Int) : Fin k → Int := fun x => if x = a then v x + 1 else v x

/-- three components of a field on the (infinite, possibly periodic) global grid -/
abbrev V3 (k : Nat) := Fin 3 → (Fin k → Int) → ℚ

/-- Specification (Yee, 2D): increment of E in time `dt` -/
def yeeE2 (P : Par 2) (dt : ℚ) (b j : V3 2) : V3 2 :=
  ![fun v => dt * P.c2 * ((b 2 v - b 2 (dn 1 v)) / P.d 1) - dt / P.eps0 * j 0 v,
    fun v => dt * P.c2 * (-(b 2 v - b 2 (dn 0 v)) / P.d 0) - dt / P.eps0 * j 1 v,
    fun v => dt * P.c2 * ((b 1 v - b 1 (dn 0 v)) / P.d 0 - (b 0 v - b 0 (dn 1 v)) / P.d 1)
      - dt / P.eps0 * j 2 v]

/-- Specification (Yee, 2D): increment of B in time `dt` -/
def yeeB2 (P : Par 2) (dt : ℚ) (e : V3 2) : V3 2 :=
  ![fun v => -(dt * ((e 2 (up 1 v) - e 2 v) / P.d 1)),
    fun v => -(dt * (-(e 2 (up 0 v) - e 2 v) / P.d 0)),
    fun v => -(dt * ((e 1 (up 0 v) - e 1 v) / P.d 0 - (e 0 (up 1 v) - e 0 v) / P.d 1))]

/-- Specification (Yee, 3D): increment of E in time `dt` -/
def yeeE3 (P : Par 3) (dt : ℚ) (b j : V3 3) : V3 3 :=
  ![fun v => dt * P.c2 * ((b 2 v - b 2 (dn 1 v)) / P.d 1 - (b 1 v - b 1 (dn 2 v)) / P.d 2)
      - dt / P.eps0 * j 0 v,
    fun v => dt * P.c2 * ((b 0 v - b 0 (dn 2 v)) / P.d 2 - (b 2 v - b 2 (dn 0 v)) / P.d 0)
      - dt / P.eps0 * j 1 v,
    fun v => dt * P.c2 * ((b 1 v - b 1 (dn 0 v)) / P.d 0 - (b 0 v - b 0 (dn 1 v)) / P.d 1)
      - dt / P.eps0 * j 2 v]

/-- Specification (Yee, 3D): increment of B in time `dt` -/
def yeeB3 (P : Par 3) (dt : ℚ) (e : V3 3) : V3 3 :=
  ![fun v => -(dt * ((e 2 (up 1 v) - e 2 v) / P.d 1 - (e 1 (up 2 v) - e 1 v) / P.d 2)),
    fun v => -(dt * ((e 0 (up 2 v) - e 0 v) / P.d 2 - (e 2 (up 0 v) - e 2 v) / P.d 0)),
    fun v => -(dt * ((e 1 (up 0 v) - e 1 v) / P.d 0 - (e 0 (up 1 v) - e 0 v) / P.d 1))]

/-! ### loops over the cells of a patch -/

theorem fold_e {k : Nat} (n : Fin k → Nat) (ng : Nat) (body : Fields k → (Fin k → Nat) → Fields k)
    (F : (Fin 3 → Arr k) → (Fin 3 → Arr k) → Fin 3 → (Fin k → Nat) → ℚ)
    (hbody : ∀ f u, (body f u).b = f.b ∧ (body f u).j = f.j ∧ ∀ d, (body f u).e d =
      put (f.e d) (index n ng fun a => u a) (f.e d (index n ng fun a => u a) + F f.b f.j d u)) :
    ∀ (l : List (Fin k → Nat)), (∀ u ∈ l, ∀ a, u a < n a) → l.Nodup → ∀ f : Fields k,
      (l.foldl body f).b = f.b ∧ (l.foldl body f).j = f.j ∧
      (∀ d, ∀ u ∈ l, (l.foldl body f).e d (index n ng fun a => u a) =
        f.e d (index n ng fun a => u a) + F f.b f.j d u) ∧
      (∀ d x, (∀ u ∈ l, (index n ng fun a => (u a : Int)) ≠ x) → (l.foldl body f).e d x = f.e d x)
  | [], _, _, f => ⟨rfl, rfl, by simp, fun _ _ _ => rfl⟩
  | u :: l, hb, hnd, f => by
    rw [List.nodup_cons] at hnd
    rw [List.foldl_cons]
    obtain ⟨h1, h2, h3⟩ := hbody f u
    obtain ⟨i1, i2, i3, i4⟩ := fold_e n ng body F hbody l (fun w hw => hb w (by simp [hw])) hnd.2 (body f u)
    have hown : ∀ w ∈ u :: l, Own n fun a => (w a : Int) := fun w hw a => by
      have := hb w hw a; constructor <;> dsimp only <;> omega
    have hne : ∀ w ∈ l, (index n ng fun a => (w a : Int)) ≠ index n ng fun a => (u a : Int) := by
      intro w hw e
      have := index_inj ((hown w (by simp [hw])).inRange ng) ((hown u (by simp)).inRange ng) e
      have h : w = u := funext fun a => by have := congrFun this a; simpa using this
      exact hnd.1 (h ▸ hw)
    refine ⟨i1.trans h1, i2.trans h2, ?_, ?_⟩
    · intro d w hw
      rcases List.mem_cons.mp hw with rfl | hw'
      · rw [i4 d _ hne, h3 d]
        unfold put
        rw [if_pos rfl]
      · rw [i3 d w hw', h1, h2, h3 d]
        unfold put
        rw [if_neg (hne w hw')]
    · intro d x hx
      rw [i4 d x (fun w hw => hx w (by simp [hw])), h3 d]
      unfold put
      rw [if_neg (fun e => hx u (by simp) e.symm)]

theorem fold_b {k : Nat} (n : Fin k → Nat) (ng : Nat) (body : Fields k → (Fin k → Nat) → Fields k)
    (F : (Fin 3 → Arr k) → Fin 3 → (Fin k → Nat) → ℚ)
    (hbody : ∀ f u, (body f u).e = f.e ∧ (body f u).j = f.j ∧ ∀ d, (body f u).b d =
      put (f.b d) (index n ng fun a => u a) (f.b d (index n ng fun a => u a) + F f.e d u)) :
    ∀ (l : List (Fin k → Nat)), (∀ u ∈ l, ∀ a, u a < n a) → l.Nodup → ∀ f : Fields k,
      (l.foldl body f).e = f.e ∧ (l.foldl body f).j = f.j ∧
      (∀ d, ∀ u ∈ l, (l.foldl body f).b d (index n ng fun a => u a) =
        f.b d (index n ng fun a => u a) + F f.e d u) ∧
      (∀ d x, (∀ u ∈ l, (index n ng fun a => (u a : Int)) ≠ x) → (l.foldl body f).b d x = f.b d x)
  | [], _, _, f => ⟨rfl, rfl, by simp, fun _ _ _ => rfl⟩
  | u :: l, hb, hnd, f => by
    rw [List.nodup_cons] at hnd
    rw [List.foldl_cons]
    obtain ⟨h1, h2, h3⟩ := hbody f u
    obtain ⟨i1, i2, i3, i4⟩ := fold_b n ng body F hbody l (fun w hw => hb w (by simp [hw])) hnd.2 (body f u)
    have hown : ∀ w ∈ u :: l, Own n fun a => (w a : Int) := fun w hw a => by
      have := hb w hw a; constructor <;> dsimp only <;> omega
    have hne : ∀ w ∈ l, (index n ng fun a => (w a : Int)) ≠ index n ng fun a => (u a : Int) := by
      intro w hw e
      have := index_inj ((hown w (by simp [hw])).inRange ng) ((hown u (by simp)).inRange ng) e
      have h : w = u := funext fun a => by have := congrFun this a; simpa using this
      exact hnd.1 (h ▸ hw)
    refine ⟨i1.trans h1, i2.trans h2, ?_, ?_⟩
    · intro d w hw
      rcases List.mem_cons.mp hw with rfl | hw'
      · rw [i4 d _ hne, h3 d]
        unfold put
        rw [if_pos rfl]
      · rw [i3 d w hw', h1, h3 d]
        unfold put
        rw [if_neg (hne w hw')]
    · intro d x hx
      rw [i4 d x (fun w hw => hx w (by simp [hw])), h3 d]
      unfold put
      rw [if_neg (fun e => hx u (by simp) e.symm)]

theorem vec2 (u : Fin 2 → Int) : ![u 0, u 1] = u := by
  funext a; match a with | 0 => rfl | 1 => rfl
theorem vec3 (u : Fin 3 → Int) : ![u 0, u 1, u 2] = u := by
  funext a; match a with | 0 => rfl | 1 => rfl | 2 => rfl
theorem dn2_0 (u : Fin 2 → Int) : ![u 0 - 1, u 1] = dn 0 u := by
  funext a; match a with | 0 => rfl | 1 => rfl
theorem dn2_1 (u : Fin 2 → Int) : ![u 0, u 1 - 1] = dn 1 u := by
  funext a; match a with | 0 => rfl | 1 => rfl
theorem up2_0 (u : Fin 2 → Int) : ![u 0 + 1, u 1] = up 0 u := by
  funext a; match a with | 0 => rfl | 1 => rfl
theorem up2_1 (u : Fin 2 → Int) : ![u 0, u 1 + 1] = up 1 u := by
  funext a; match a with | 0 => rfl | 1 => rfl
theorem dn3_0 (u : Fin 3 → Int) : ![u 0 - 1, u 1, u 2] = dn 0 u := by
  funext a; match a with | 0 => rfl | 1 => rfl | 2 => rfl
theorem dn3_1 (u : Fin 3 → Int) : ![u 0, u 1 - 1, u 2] = dn 1 u := by
  funext a; match a with | 0 => rfl | 1 => rfl | 2 => rfl
theorem dn3_2 (u : Fin 3 → Int) : ![u 0, u 1, u 2 - 1] = dn 2 u := by
  funext a; match a with | 0 => rfl | 1 => rfl | 2 => rfl
theorem up3_0 (u : Fin 3 → Int) : ![u 0 + 1, u 1, u 2] = up 0 u := by
  funext a; match a with | 0 => rfl | 1 => rfl | 2 => rfl
theorem up3_1 (u : Fin 3 → Int) : ![u 0, u 1 + 1, u 2] = up 1 u := by
  funext a; match a with | 0 => rfl | 1 => rfl | 2 => rfl
theorem up3_2 (u : Fin 3 → Int) : ![u 0, u 1, u 2 + 1] = up 2 u := by
  funext a; match a with | 0 => rfl | 1 => rfl | 2 => rfl

/-- read the cells of a patch -/
def cellsOf {k : Nat} (n : Fin k → Nat) (ng : Nat) (A : Fin 3 → Arr k) : V3 k := fun d v => A d (index n ng v)

theorem at2_own (nx ny ng : Nat) (u : Fin 2 → Nat) :
    at2 nx ny ng (u 0) (u 1) = index ![nx, ny] ng fun a => (u a : Int) := by
  unfold at2; rw [vec2 (fun a => (u a : Int))]

theorem at3_own (nx ny nz ng : Nat) (u : Fin 3 → Nat) :
    at3 nx ny nz ng (u 0) (u 1) (u 2) = index ![nx, ny, nz] ng fun a => (u a : Int) := by
  unfold at3; rw [vec3 (fun a => (u a : Int))]

theorem at2_dn0 (nx ny ng : Nat) (u : Fin 2 → Nat) :
    at2 nx ny ng ((u 0 : Int) - 1) (u 1) = index ![nx, ny] ng (dn 0 fun a => (u a : Int)) := by
  unfold at2; rw [dn2_0 (fun a => (u a : Int))]

theorem at2_dn1 (nx ny ng : Nat) (u : Fin 2 → Nat) :
    at2 nx ny ng (u 0) ((u 1 : Int) - 1) = index ![nx, ny] ng (dn 1 fun a => (u a : Int)) := by
  unfold at2; rw [dn2_1 (fun a => (u a : Int))]

theorem at2_up0 (nx ny ng : Nat) (u : Fin 2 → Nat) :
    at2 nx ny ng ((u 0 : Int) + 1) (u 1) = index ![nx, ny] ng (up 0 fun a => (u a : Int)) := by
  unfold at2; rw [up2_0 (fun a => (u a : Int))]

theorem at2_up1 (nx ny ng : Nat) (u : Fin 2 → Nat) :
    at2 nx ny ng (u 0) ((u 1 : Int) + 1) = index ![nx, ny] ng (up 1 fun a => (u a : Int)) := by
  unfold at2; rw [up2_1 (fun a => (u a : Int))]

theorem eBody2_form (nx ny ng : Nat) (P : Par 2) (dt : ℚ) (f : Fields 2) (u : Fin 2 → Nat) :
    (eBody2 nx ny ng P dt f u).b = f.b ∧ (eBody2 nx ny ng P dt f u).j = f.j ∧
    ∀ d, (eBody2 nx ny ng P dt f u).e d =
      put (f.e d) (index ![nx, ny] ng fun a => u a) (f.e d (index ![nx, ny] ng fun a => u a) +
        yeeE2 P dt (cellsOf ![nx, ny] ng f.b) (cellsOf ![nx, ny] ng f.j) d fun a => u a) := by
  refine ⟨rfl, rfl, ?_⟩
  intro d
  match d with
  | 0 =>
    have h : (eBody2 nx ny ng P dt f u).e 0 = put (f.e 0) (at2 nx ny ng (u 0) (u 1)) (f.e 0 (at2 nx ny ng (u 0) (u 1)) +
      (dt * P.c2 * ((f.b 2 (at2 nx ny ng (u 0) (u 1)) - f.b 2 (at2 nx ny ng (u 0) ((u 1 : Int) - 1))) / P.d 1) - dt / P.eps0 * f.j 0 (at2 nx ny ng (u 0) (u 1)))) := rfl
    rw [h, at2_own, at2_dn1]
    rfl
  | 1 =>
    have h : (eBody2 nx ny ng P dt f u).e 1 = put (f.e 1) (at2 nx ny ng (u 0) (u 1)) (f.e 1 (at2 nx ny ng (u 0) (u 1)) +
      (dt * P.c2 * (-(f.b 2 (at2 nx ny ng (u 0) (u 1)) - f.b 2 (at2 nx ny ng ((u 0 : Int) - 1) (u 1))) / P.d 0) - dt / P.eps0 * f.j 1 (at2 nx ny ng (u 0) (u 1)))) := rfl
    rw [h, at2_own, at2_dn0]
    rfl
  | 2 =>
    have h : (eBody2 nx ny ng P dt f u).e 2 = put (f.e 2) (at2 nx ny ng (u 0) (u 1)) (f.e 2 (at2 nx ny ng (u 0) (u 1)) +
      (dt * P.c2 * ((f.b 1 (at2 nx ny ng (u 0) (u 1)) - f.b 1 (at2 nx ny ng ((u 0 : Int) - 1) (u 1))) / P.d 0 - (f.b 0 (at2 nx ny ng (u 0) (u 1)) - f.b 0 (at2 nx ny ng (u 0) ((u 1 : Int) - 1))) / P.d 1) - dt / P.eps0 * f.j 2 (at2 nx ny ng (u 0) (u 1)))) := rfl
    rw [h, at2_own, at2_dn0, at2_dn1]
    rfl

theorem bBody2_form (nx ny ng : Nat) (P : Par 2) (dt : ℚ) (f : Fields 2) (u : Fin 2 → Nat) :
    (bBody2 nx ny ng P dt f u).e = f.e ∧ (bBody2 nx ny ng P dt f u).j = f.j ∧
    ∀ d, (bBody2 nx ny ng P dt f u).b d =
      put (f.b d) (index ![nx, ny] ng fun a => u a) (f.b d (index ![nx, ny] ng fun a => u a) +
        yeeB2 P dt (cellsOf ![nx, ny] ng f.e) d fun a => u a) := by
  refine ⟨rfl, rfl, ?_⟩
  intro d
  match d with
  | 0 =>
    have h : (bBody2 nx ny ng P dt f u).b 0 = put (f.b 0) (at2 nx ny ng (u 0) (u 1)) (f.b 0 (at2 nx ny ng (u 0) (u 1)) -
      dt * ((f.e 2 (at2 nx ny ng (u 0) ((u 1 : Int) + 1)) - f.e 2 (at2 nx ny ng (u 0) (u 1))) / P.d 1)) := rfl
    rw [h, at2_own, at2_up1, sub_eq_add_neg (f.b 0 _)]
    rfl
  | 1 =>
    have h : (bBody2 nx ny ng P dt f u).b 1 = put (f.b 1) (at2 nx ny ng (u 0) (u 1)) (f.b 1 (at2 nx ny ng (u 0) (u 1)) -
      dt * (-(f.e 2 (at2 nx ny ng ((u 0 : Int) + 1) (u 1)) - f.e 2 (at2 nx ny ng (u 0) (u 1))) / P.d 0)) := rfl
    rw [h, at2_own, at2_up0, sub_eq_add_neg (f.b 1 _)]
    rfl
  | 2 =>
    have h : (bBody2 nx ny ng P dt f u).b 2 = put (f.b 2) (at2 nx ny ng (u 0) (u 1)) (f.b 2 (at2 nx ny ng (u 0) (u 1)) -
      dt * ((f.e 1 (at2 nx ny ng ((u 0 : Int) + 1) (u 1)) - f.e 1 (at2 nx ny ng (u 0) (u 1))) / P.d 0 - (f.e 0 (at2 nx ny ng (u 0) ((u 1 : Int) + 1)) - f.e 0 (at2 nx ny ng (u 0) (u 1))) / P.d 1)) := rfl
    rw [h, at2_own, at2_up0, at2_up1, sub_eq_add_neg (f.b 2 _)]
    rfl

theorem at3_dn0 (nx ny nz ng : Nat) (u : Fin 3 → Nat) :
    at3 nx ny nz ng ((u 0 : Int) - 1) (u 1) (u 2) = index ![nx, ny, nz] ng (dn 0 fun a => (u a : Int)) := by
  unfold at3; rw [dn3_0 (fun a => (u a : Int))]

theorem at3_dn1 (nx ny nz ng : Nat) (u : Fin 3 → Nat) :
    at3 nx ny nz ng (u 0) ((u 1 : Int) - 1) (u 2) = index ![nx, ny, nz] ng (dn 1 fun a => (u a : Int)) := by
  unfold at3; rw [dn3_1 (fun a => (u a : Int))]

theorem at3_dn2 (nx ny nz ng : Nat) (u : Fin 3 → Nat) :
    at3 nx ny nz ng (u 0) (u 1) ((u 2 : Int) - 1) = index ![nx, ny, nz] ng (dn 2 fun a => (u a : Int)) := by
  unfold at3; rw [dn3_2 (fun a => (u a : Int))]

theorem at3_up0 (nx ny nz ng : Nat) (u : Fin 3 → Nat) :
    at3 nx ny nz ng ((u 0 : Int) + 1) (u 1) (u 2) = index ![nx, ny, nz] ng (up 0 fun a => (u a : Int)) := by
  unfold at3; rw [up3_0 (fun a => (u a : Int))]

theorem at3_up1 (nx ny nz ng : Nat) (u : Fin 3 → Nat) :
    at3 nx ny nz ng (u 0) ((u 1 : Int) + 1) (u 2) = index ![nx, ny, nz] ng (up 1 fun a => (u a : Int)) := by
  unfold at3; rw [up3_1 (fun a => (u a : Int))]

theorem at3_up2 (nx ny nz ng : Nat) (u : Fin 3 → Nat) :
    at3 nx ny nz ng (u 0) (u 1) ((u 2 : Int) + 1) = index ![nx, ny, nz] ng (up 2 fun a => (u a : Int)) := by
  unfold at3; rw [up3_2 (fun a => (u a : Int))]

theorem eBody3_form (nx ny nz ng : Nat) (P : Par 3) (dt : ℚ) (f : Fields 3) (u : Fin 3 → Nat) :
    (eBody3 nx ny nz ng P dt f u).b = f.b ∧ (eBody3 nx ny nz ng P dt f u).j = f.j ∧
    ∀ d, (eBody3 nx ny nz ng P dt f u).e d =
      put (f.e d) (index ![nx, ny, nz] ng fun a => u a) (f.e d (index ![nx, ny, nz] ng fun a => u a) +
        yeeE3 P dt (cellsOf ![nx, ny, nz] ng f.b) (cellsOf ![nx, ny, nz] ng f.j) d fun a => u a) := by
  refine ⟨rfl, rfl, ?_⟩
  intro d
  match d with
  | 0 =>
    have h : (eBody3 nx ny nz ng P dt f u).e 0 = put (f.e 0) (at3 nx ny nz ng (u 0) (u 1) (u 2)) (f.e 0 (at3 nx ny nz ng (u 0) (u 1) (u 2)) +
      (dt * P.c2 * ((f.b 2 (at3 nx ny nz ng (u 0) (u 1) (u 2)) - f.b 2 (at3 nx ny nz ng (u 0) ((u 1 : Int) - 1) (u 2))) / P.d 1 - (f.b 1 (at3 nx ny nz ng (u 0) (u 1) (u 2)) - f.b 1 (at3 nx ny nz ng (u 0) (u 1) ((u 2 : Int) - 1))) / P.d 2) - dt / P.eps0 * f.j 0 (at3 nx ny nz ng (u 0) (u 1) (u 2)))) := rfl
    rw [h, at3_own, at3_dn1, at3_dn2]
    rfl
  | 1 =>
    have h : (eBody3 nx ny nz ng P dt f u).e 1 = put (f.e 1) (at3 nx ny nz ng (u 0) (u 1) (u 2)) (f.e 1 (at3 nx ny nz ng (u 0) (u 1) (u 2)) +
      (dt * P.c2 * ((f.b 0 (at3 nx ny nz ng (u 0) (u 1) (u 2)) - f.b 0 (at3 nx ny nz ng (u 0) (u 1) ((u 2 : Int) - 1))) / P.d 2 - (f.b 2 (at3 nx ny nz ng (u 0) (u 1) (u 2)) - f.b 2 (at3 nx ny nz ng ((u 0 : Int) - 1) (u 1) (u 2))) / P.d 0) - dt / P.eps0 * f.j 1 (at3 nx ny nz ng (u 0) (u 1) (u 2)))) := rfl
    rw [h, at3_own, at3_dn0, at3_dn2]
    rfl
  | 2 =>
    have h : (eBody3 nx ny nz ng P dt f u).e 2 = put (f.e 2) (at3 nx ny nz ng (u 0) (u 1) (u 2)) (f.e 2 (at3 nx ny nz ng (u 0) (u 1) (u 2)) +
      (dt * P.c2 * ((f.b 1 (at3 nx ny nz ng (u 0) (u 1) (u 2)) - f.b 1 (at3 nx ny nz ng ((u 0 : Int) - 1) (u 1) (u 2))) / P.d 0 - (f.b 0 (at3 nx ny nz ng (u 0) (u 1) (u 2)) - f.b 0 (at3 nx ny nz ng (u 0) ((u 1 : Int) - 1) (u 2))) / P.d 1) - dt / P.eps0 * f.j 2 (at3 nx ny nz ng (u 0) (u 1) (u 2)))) := rfl
    rw [h, at3_own, at3_dn0, at3_dn1]
    rfl

theorem bBody3_form (nx ny nz ng : Nat) (P : Par 3) (dt : ℚ) (f : Fields 3) (u : Fin 3 → Nat) :
    (bBody3 nx ny nz ng P dt f u).e = f.e ∧ (bBody3 nx ny nz ng P dt f u).j = f.j ∧
    ∀ d, (bBody3 nx ny nz ng P dt f u).b d =
      put (f.b d) (index ![nx, ny, nz] ng fun a => u a) (f.b d (index ![nx, ny, nz] ng fun a => u a) +
        yeeB3 P dt (cellsOf ![nx, ny, nz] ng f.e) d fun a => u a) := by
  refine ⟨rfl, rfl, ?_⟩
  intro d
  match d with
  | 0 =>
    have h : (bBody3 nx ny nz ng P dt f u).b 0 = put (f.b 0) (at3 nx ny nz ng (u 0) (u 1) (u 2)) (f.b 0 (at3 nx ny nz ng (u 0) (u 1) (u 2)) -
      dt * ((f.e 2 (at3 nx ny nz ng (u 0) ((u 1 : Int) + 1) (u 2)) - f.e 2 (at3 nx ny nz ng (u 0) (u 1) (u 2))) / P.d 1 - (f.e 1 (at3 nx ny nz ng (u 0) (u 1) ((u 2 : Int) + 1)) - f.e 1 (at3 nx ny nz ng (u 0) (u 1) (u 2))) / P.d 2)) := rfl
    rw [h, at3_own, at3_up1, at3_up2, sub_eq_add_neg (f.b 0 _)]
    rfl
  | 1 =>
    have h : (bBody3 nx ny nz ng P dt f u).b 1 = put (f.b 1) (at3 nx ny nz ng (u 0) (u 1) (u 2)) (f.b 1 (at3 nx ny nz ng (u 0) (u 1) (u 2)) -
      dt * ((f.e 0 (at3 nx ny nz ng (u 0) (u 1) ((u 2 : Int) + 1)) - f.e 0 (at3 nx ny nz ng (u 0) (u 1) (u 2))) / P.d 2 - (f.e 2 (at3 nx ny nz ng ((u 0 : Int) + 1) (u 1) (u 2)) - f.e 2 (at3 nx ny nz ng (u 0) (u 1) (u 2))) / P.d 0)) := rfl
    rw [h, at3_own, at3_up0, at3_up2, sub_eq_add_neg (f.b 1 _)]
    rfl
  | 2 =>
    have h : (bBody3 nx ny nz ng P dt f u).b 2 = put (f.b 2) (at3 nx ny nz ng (u 0) (u 1) (u 2)) (f.b 2 (at3 nx ny nz ng (u 0) (u 1) (u 2)) -
      dt * ((f.e 1 (at3 nx ny nz ng ((u 0 : Int) + 1) (u 1) (u 2)) - f.e 1 (at3 nx ny nz ng (u 0) (u 1) (u 2))) / P.d 0 - (f.e 0 (at3 nx ny nz ng (u 0) ((u 1 : Int) + 1) (u 2)) - f.e 0 (at3 nx ny nz ng (u 0) (u 1) (u 2))) / P.d 1)) := rfl
    rw [h, at3_own, at3_up0, at3_up1, sub_eq_add_neg (f.b 2 _)]
    rfl

/-! ### what a kernel does to the cells of a patch -/

/-- the two kernels implement the increments `FE`, `FB` on own cells and touch nothing else -/
structure KernelOK {k : Nat} {D : Type} (S : Solver k D) (FE : ℚ → V3 k → V3 k → V3 k)
    (FB : ℚ → V3 k → V3 k) : Prop where
  eE : ∀ dt f d v, Own S.sync.n v → (S.updE dt f).e d (index S.sync.n S.sync.ng v) =
    f.e d (index S.sync.n S.sync.ng v) +
      FE dt (cellsOf S.sync.n S.sync.ng f.b) (cellsOf S.sync.n S.sync.ng f.j) d v
  eB : ∀ dt f, (S.updE dt f).b = f.b ∧ (S.updE dt f).j = f.j
  bB : ∀ dt f d v, Own S.sync.n v → (S.updB dt f).b d (index S.sync.n S.sync.ng v) =
    f.b d (index S.sync.n S.sync.ng v) + FB dt (cellsOf S.sync.n S.sync.ng f.e) d v
  bE : ∀ dt f, (S.updB dt f).e = f.e ∧ (S.updB dt f).j = f.j

theorem own_nat {k : Nat} {n : Fin k → Nat} {v : Fin k → Int} (h : Own n v) :
    ∃ u : Fin k → Nat, (∀ a, u a < n a) ∧ v = fun a => (u a : Int) :=
  ⟨fun a => (v a).toNat, fun a => by have := h a; dsimp only; omega,
    funext fun a => by have := h a; dsimp only; omega⟩

theorem kernel2 (nx ny ng N : Nat) (nbr : Nat → B2 → Option Nat) (P : Par 2) :
    KernelOK (solver2 nx ny ng N nbr P) (yeeE2 P) (yeeB2 P) := by
  have hb : ∀ u ∈ cells2 ![nx, ny], ∀ a, u a < ![nx, ny] a := fun u hu => (mem_cells2 _ _).mp hu
  have hE := fun dt f => fold_e ![nx, ny] ng (eBody2 nx ny ng P dt)
    (fun b j d u => yeeE2 P dt (cellsOf ![nx, ny] ng b) (cellsOf ![nx, ny] ng j) d fun a => u a)
    (eBody2_form nx ny ng P dt) _ hb (nodup_cells2 _) f
  have hB := fun dt f => fold_b ![nx, ny] ng (bBody2 nx ny ng P dt)
    (fun e d u => yeeB2 P dt (cellsOf ![nx, ny] ng e) d fun a => u a)
    (bBody2_form nx ny ng P dt) _ hb (nodup_cells2 _) f
  refine ⟨?_, fun dt f => ⟨(hE dt f).1, (hE dt f).2.1⟩, ?_, fun dt f => ⟨(hB dt f).1, (hB dt f).2.1⟩⟩
  · intro dt f d v hv
    obtain ⟨u, hu, rfl⟩ := own_nat hv
    exact (hE dt f).2.2.1 d u ((mem_cells2 _ _).mpr hu)
  · intro dt f d v hv
    obtain ⟨u, hu, rfl⟩ := own_nat hv
    exact (hB dt f).2.2.1 d u ((mem_cells2 _ _).mpr hu)

theorem kernel3 (nx ny nz ng N : Nat) (nbr : Nat → B3 → Option Nat) (P : Par 3) :
    KernelOK (solver3 nx ny nz ng N nbr P) (yeeE3 P) (yeeB3 P) := by
  have hb : ∀ u ∈ cells3 ![nx, ny, nz], ∀ a, u a < ![nx, ny, nz] a := fun u hu => (mem_cells3 _ _).mp hu
  have hE := fun dt f => fold_e ![nx, ny, nz] ng (eBody3 nx ny nz ng P dt)
    (fun b j d u => yeeE3 P dt (cellsOf ![nx, ny, nz] ng b) (cellsOf ![nx, ny, nz] ng j) d fun a => u a)
    (eBody3_form nx ny nz ng P dt) _ hb (nodup_cells3 _) f
  have hB := fun dt f => fold_b ![nx, ny, nz] ng (bBody3 nx ny nz ng P dt)
    (fun e d u => yeeB3 P dt (cellsOf ![nx, ny, nz] ng e) d fun a => u a)
    (bBody3_form nx ny nz ng P dt) _ hb (nodup_cells3 _) f
  refine ⟨?_, fun dt f => ⟨(hE dt f).1, (hE dt f).2.1⟩, ?_, fun dt f => ⟨(hB dt f).1, (hB dt f).2.1⟩⟩
  · intro dt f d v hv
    obtain ⟨u, hu, rfl⟩ := own_nat hv
    exact (hE dt f).2.2.1 d u ((mem_cells3 _ _).mpr hu)
  · intro dt f d v hv
    obtain ⟨u, hu, rfl⟩ := own_nat hv
    exact (hB dt f).2.2.1 d u ((mem_cells3 _ _).mpr hu)

/-! ### patches against the undivided grid -/

/-- E, B and J on the undivided grid -/
structure GF (k : Nat) where
  e : V3 k
  b : V3 k
  j : V3 k

/-- global cell number of a cell of a patch at patch coordinates `c` -/
def globalCell {k : Nat} (n : Fin k → Nat) (c : Fin k → Nat) (v : Fin k → Int) : Fin k → Int :=
  fun a => c a * n a + v a

/-- periodic on a ring of `np * n` cells per axis -/
def Periodic {k : Nat} (np n : Fin k → Nat) (g : V3 k) : Prop :=
  ∀ d v w, (∀ a, v a ≡ w a [ZMOD (np a * n a : Int)]) → g d v = g d w

/-- all components of `A` of patch `t`, on the cells `R`, are the values of the global field -/
def Shows {k : Nat} (n : Fin k → Nat) (ng N : Nat) (g : Place k) (R : (Fin k → Int) → Prop)
    (A : Nat → Fin 3 → Arr k) (G : V3 k) : Prop :=
  ∀ t, t < N → ∀ d v, R v → A t d (index n ng v) = G d (globalCell n (g.coord t) v)

/-- the increment only looks at the cell itself and the cells next to it, and moves with the grid -/
structure LocalFE {k : Nat} (FE : ℚ → V3 k → V3 k → V3 k) : Prop where
  loc : ∀ dt (b b' j j' : V3 k) d v, (∀ d, b d v = b' d v) → (∀ d a, b d (dn a v) = b' d (dn a v)) →
    (∀ d, j d v = j' d v) → FE dt b j d v = FE dt b' j' d v
  shift : ∀ dt (b j : V3 k) d v (s : Fin k → Int), FE dt b j d (fun a => s a + v a) =
    FE dt (fun d w => b d fun a => s a + w a) (fun d w => j d fun a => s a + w a) d v

structure LocalFB {k : Nat} (FB : ℚ → V3 k → V3 k) : Prop where
  loc : ∀ dt (e e' : V3 k) d v, (∀ d, e d v = e' d v) → (∀ d a, e d (up a v) = e' d (up a v)) →
    FB dt e d v = FB dt e' d v
  shift : ∀ dt (e : V3 k) d v (s : Fin k → Int), FB dt e d (fun a => s a + v a) = FB dt (fun d w => e d fun a => s a + w a) d v

theorem dn_shift {k : Nat} (x : Fin k) (s v : Fin k → Int) :
    dn x (fun a => s a + v a) = fun a => s a + dn x v a := by
  funext a; unfold dn; dsimp only; split <;> omega
theorem up_shift {k : Nat} (x : Fin k) (s v : Fin k → Int) :
    up x (fun a => s a + v a) = fun a => s a + up x v a := by
  funext a; unfold up; dsimp only; split <;> omega

theorem localFE2 (P : Par 2) : LocalFE (yeeE2 P) := by
  constructor
  · intro dt b b' j j' d v h1 h2 h3
    match d with
    | 0 =>
      show dt * P.c2 * ((b 2 v - b 2 (dn 1 v)) / P.d 1) - dt / P.eps0 * j 0 v =
        dt * P.c2 * ((b' 2 v - b' 2 (dn 1 v)) / P.d 1) - dt / P.eps0 * j' 0 v
      simp only [h1, h2, h3]
    | 1 =>
      show dt * P.c2 * (-(b 2 v - b 2 (dn 0 v)) / P.d 0) - dt / P.eps0 * j 1 v =
        dt * P.c2 * (-(b' 2 v - b' 2 (dn 0 v)) / P.d 0) - dt / P.eps0 * j' 1 v
      simp only [h1, h2, h3]
    | 2 =>
      show dt * P.c2 * ((b 1 v - b 1 (dn 0 v)) / P.d 0 - (b 0 v - b 0 (dn 1 v)) / P.d 1) - dt / P.eps0 * j 2 v =
        dt * P.c2 * ((b' 1 v - b' 1 (dn 0 v)) / P.d 0 - (b' 0 v - b' 0 (dn 1 v)) / P.d 1) - dt / P.eps0 * j' 2 v
      simp only [h1, h2, h3]
  · intro dt b j d v s
    match d with
    | 0 =>
      show dt * P.c2 * ((b 2 (fun a => s a + v a) - b 2 (dn 1 (fun a => s a + v a))) / P.d 1) - dt / P.eps0 * j 0 (fun a => s a + v a) = _
      simp only [dn_shift]
      rfl
    | 1 =>
      show dt * P.c2 * (-(b 2 (fun a => s a + v a) - b 2 (dn 0 (fun a => s a + v a))) / P.d 0) - dt / P.eps0 * j 1 (fun a => s a + v a) = _
      simp only [dn_shift]
      rfl
    | 2 =>
      show dt * P.c2 * ((b 1 (fun a => s a + v a) - b 1 (dn 0 (fun a => s a + v a))) / P.d 0 - (b 0 (fun a => s a + v a) - b 0 (dn 1 (fun a => s a + v a))) / P.d 1) - dt / P.eps0 * j 2 (fun a => s a + v a) = _
      simp only [dn_shift]
      rfl

theorem localFB2 (P : Par 2) : LocalFB (yeeB2 P) := by
  constructor
  · intro dt e e' d v h1 h2
    match d with
    | 0 =>
      show -(dt * ((e 2 (up 1 v) - e 2 v) / P.d 1)) =
        -(dt * ((e' 2 (up 1 v) - e' 2 v) / P.d 1))
      simp only [h1, h2]
    | 1 =>
      show -(dt * (-(e 2 (up 0 v) - e 2 v) / P.d 0)) =
        -(dt * (-(e' 2 (up 0 v) - e' 2 v) / P.d 0))
      simp only [h1, h2]
    | 2 =>
      show -(dt * ((e 1 (up 0 v) - e 1 v) / P.d 0 - (e 0 (up 1 v) - e 0 v) / P.d 1)) =
        -(dt * ((e' 1 (up 0 v) - e' 1 v) / P.d 0 - (e' 0 (up 1 v) - e' 0 v) / P.d 1))
      simp only [h1, h2]
  · intro dt e d v s
    match d with
    | 0 =>
      show -(dt * ((e 2 (up 1 (fun a => s a + v a)) - e 2 (fun a => s a + v a)) / P.d 1)) = _
      simp only [up_shift]
      rfl
    | 1 =>
      show -(dt * (-(e 2 (up 0 (fun a => s a + v a)) - e 2 (fun a => s a + v a)) / P.d 0)) = _
      simp only [up_shift]
      rfl
    | 2 =>
      show -(dt * ((e 1 (up 0 (fun a => s a + v a)) - e 1 (fun a => s a + v a)) / P.d 0 - (e 0 (up 1 (fun a => s a + v a)) - e 0 (fun a => s a + v a)) / P.d 1)) = _
      simp only [up_shift]
      rfl

theorem localFE3 (P : Par 3) : LocalFE (yeeE3 P) := by
  constructor
  · intro dt b b' j j' d v h1 h2 h3
    match d with
    | 0 =>
      show dt * P.c2 * ((b 2 v - b 2 (dn 1 v)) / P.d 1 - (b 1 v - b 1 (dn 2 v)) / P.d 2) - dt / P.eps0 * j 0 v =
        dt * P.c2 * ((b' 2 v - b' 2 (dn 1 v)) / P.d 1 - (b' 1 v - b' 1 (dn 2 v)) / P.d 2) - dt / P.eps0 * j' 0 v
      simp only [h1, h2, h3]
    | 1 =>
      show dt * P.c2 * ((b 0 v - b 0 (dn 2 v)) / P.d 2 - (b 2 v - b 2 (dn 0 v)) / P.d 0) - dt / P.eps0 * j 1 v =
        dt * P.c2 * ((b' 0 v - b' 0 (dn 2 v)) / P.d 2 - (b' 2 v - b' 2 (dn 0 v)) / P.d 0) - dt / P.eps0 * j' 1 v
      simp only [h1, h2, h3]
    | 2 =>
      show dt * P.c2 * ((b 1 v - b 1 (dn 0 v)) / P.d 0 - (b 0 v - b 0 (dn 1 v)) / P.d 1) - dt / P.eps0 * j 2 v =
        dt * P.c2 * ((b' 1 v - b' 1 (dn 0 v)) / P.d 0 - (b' 0 v - b' 0 (dn 1 v)) / P.d 1) - dt / P.eps0 * j' 2 v
      simp only [h1, h2, h3]
  · intro dt b j d v s
    match d with
    | 0 =>
      show dt * P.c2 * ((b 2 (fun a => s a + v a) - b 2 (dn 1 (fun a => s a + v a))) / P.d 1 - (b 1 (fun a => s a + v a) - b 1 (dn 2 (fun a => s a + v a))) / P.d 2) - dt / P.eps0 * j 0 (fun a => s a + v a) = _
      simp only [dn_shift]
      rfl
    | 1 =>
      show dt * P.c2 * ((b 0 (fun a => s a + v a) - b 0 (dn 2 (fun a => s a + v a))) / P.d 2 - (b 2 (fun a => s a + v a) - b 2 (dn 0 (fun a => s a + v a))) / P.d 0) - dt / P.eps0 * j 1 (fun a => s a + v a) = _
      simp only [dn_shift]
      rfl
    | 2 =>
      show dt * P.c2 * ((b 1 (fun a => s a + v a) - b 1 (dn 0 (fun a => s a + v a))) / P.d 0 - (b 0 (fun a => s a + v a) - b 0 (dn 1 (fun a => s a + v a))) / P.d 1) - dt / P.eps0 * j 2 (fun a => s a + v a) = _
      simp only [dn_shift]
      rfl

theorem localFB3 (P : Par 3) : LocalFB (yeeB3 P) := by
  constructor
  · intro dt e e' d v h1 h2
    match d with
    | 0 =>
      show -(dt * ((e 2 (up 1 v) - e 2 v) / P.d 1 - (e 1 (up 2 v) - e 1 v) / P.d 2)) =
        -(dt * ((e' 2 (up 1 v) - e' 2 v) / P.d 1 - (e' 1 (up 2 v) - e' 1 v) / P.d 2))
      simp only [h1, h2]
    | 1 =>
      show -(dt * ((e 0 (up 2 v) - e 0 v) / P.d 2 - (e 2 (up 0 v) - e 2 v) / P.d 0)) =
        -(dt * ((e' 0 (up 2 v) - e' 0 v) / P.d 2 - (e' 2 (up 0 v) - e' 2 v) / P.d 0))
      simp only [h1, h2]
    | 2 =>
      show -(dt * ((e 1 (up 0 v) - e 1 v) / P.d 0 - (e 0 (up 1 v) - e 0 v) / P.d 1)) =
        -(dt * ((e' 1 (up 0 v) - e' 1 v) / P.d 0 - (e' 0 (up 1 v) - e' 0 v) / P.d 1))
      simp only [h1, h2]
  · intro dt e d v s
    match d with
    | 0 =>
      show -(dt * ((e 2 (up 1 (fun a => s a + v a)) - e 2 (fun a => s a + v a)) / P.d 1 - (e 1 (up 2 (fun a => s a + v a)) - e 1 (fun a => s a + v a)) / P.d 2)) = _
      simp only [up_shift]
      rfl
    | 1 =>
      show -(dt * ((e 0 (up 2 (fun a => s a + v a)) - e 0 (fun a => s a + v a)) / P.d 2 - (e 2 (up 0 (fun a => s a + v a)) - e 2 (fun a => s a + v a)) / P.d 0)) = _
      simp only [up_shift]
      rfl
    | 2 =>
      show -(dt * ((e 1 (up 0 (fun a => s a + v a)) - e 1 (fun a => s a + v a)) / P.d 0 - (e 0 (up 1 (fun a => s a + v a)) - e 0 (fun a => s a + v a)) / P.d 1)) = _
      simp only [up_shift]
      rfl

/-- E after time `dt` on the undivided grid -/
def GF.stepE {k : Nat} (FE : ℚ → V3 k → V3 k → V3 k) (dt : ℚ) (G : GF k) : GF k :=
  { G with e := fun d v => G.e d v + FE dt G.b G.j d v }
/-- B after time `dt` on the undivided grid -/
def GF.stepB {k : Nat} (FB : ℚ → V3 k → V3 k) (dt : ℚ) (G : GF k) : GF k :=
  { G with b := fun d v => G.b d v + FB dt G.e d v }

/-- One time step on the undivided grid: E and B by half a step, new currents, B and E by half a step. -/
def GF.step {k : Nat} (FE : ℚ → V3 k → V3 k → V3 k) (FB : ℚ → V3 k → V3 k) (dt : ℚ) (J : V3 k)
    (G : GF k) : GF k :=
  let G1 := (G.stepE FE (1 / 2 * dt)).stepB FB (1 / 2 * dt)
  (({ G1 with j := J } : GF k).stepB FB (1 / 2 * dt)).stepE FE (1 / 2 * dt)

structure GF.Per {k : Nat} (np n : Fin k → Nat) (G : GF k) : Prop where
  e : Periodic np n G.e
  b : Periodic np n G.b
  j : Periodic np n G.j

theorem dn_modEq {k : Nat} {m : Fin k → Int} {v w : Fin k → Int} (h : ∀ a, v a ≡ w a [ZMOD m a])
    (x : Fin k) : ∀ a, dn x v a ≡ dn x w a [ZMOD m a] := by
  intro a; unfold dn; split
  · exact (h a).sub_right 1
  · exact h a
theorem up_modEq {k : Nat} {m : Fin k → Int} {v w : Fin k → Int} (h : ∀ a, v a ≡ w a [ZMOD m a])
    (x : Fin k) : ∀ a, up x v a ≡ up x w a [ZMOD m a] := by
  intro a; unfold up; split
  · exact (h a).add_right 1
  · exact h a

section
variable {k : Nat} {FE : ℚ → V3 k → V3 k → V3 k} {FB : ℚ → V3 k → V3 k}

/-- the increment at two equivalent cells of periodic fields -/
theorem LocalFE.periodic (hl : LocalFE FE) {np n : Fin k → Nat} {b j : V3 k} (hb : Periodic np n b)
    (hj : Periodic np n j) (dt : ℚ) : Periodic np n (FE dt b j) := by
  intro d v w h
  have e1 : v = fun a => (v a - w a) + w a := by funext a; ring
  rw [e1, hl.shift dt b j d w (fun a => v a - w a)]
  have hs : ∀ x : Fin k → Int, ∀ a, (v a - w a) + x a ≡ x a [ZMOD (np a * n a : Int)] := by
    intro x a
    have := (h a).sub_right (w a)
    have := this.add_right (x a)
    rwa [sub_self, zero_add] at this
  apply hl.loc
  · intro d; exact hb d _ _ (hs w)
  · intro d a; exact hb d _ _ (hs (dn a w))
  · intro d; exact hj d _ _ (hs w)

theorem LocalFB.periodic (hl : LocalFB FB) {np n : Fin k → Nat} {e : V3 k} (he : Periodic np n e)
    (dt : ℚ) : Periodic np n (FB dt e) := by
  intro d v w h
  have e1 : v = fun a => (v a - w a) + w a := by funext a; ring
  rw [e1, hl.shift dt e d w (fun a => v a - w a)]
  have hs : ∀ x : Fin k → Int, ∀ a, (v a - w a) + x a ≡ x a [ZMOD (np a * n a : Int)] := by
    intro x a
    have := (h a).sub_right (w a)
    have := this.add_right (x a)
    rwa [sub_self, zero_add] at this
  apply hl.loc
  · intro d; exact he d _ _ (hs w)
  · intro d a; exact he d _ _ (hs (up a w))

theorem GF.Per.stepE (hl : LocalFE FE) {np n : Fin k → Nat} {G : GF k} (h : G.Per np n) (dt : ℚ) :
    (G.stepE FE dt).Per np n :=
  ⟨fun d v w hvw => by
    show G.e d v + FE dt G.b G.j d v = G.e d w + FE dt G.b G.j d w
    rw [h.e d v w hvw, hl.periodic h.b h.j dt d v w hvw], h.b, h.j⟩

theorem GF.Per.stepB (hl : LocalFB FB) {np n : Fin k → Nat} {G : GF k} (h : G.Per np n) (dt : ℚ) :
    (G.stepB FB dt).Per np n :=
  ⟨h.e, fun d v w hvw => by
    show G.b d v + FB dt G.e d v = G.b d w + FB dt G.e d w
    rw [h.b d v w hvw, hl.periodic h.e dt d v w hvw], h.j⟩

/-- the whole periodic patch grid is on this process -/
structure AllLocal {D : Type} (s : Sync k D) (g : Place k) : Prop where
  periodic : ∀ a, (g.bc a).lo = .periodic
  full : ∀ c : Fin k → Nat, (∀ a, c a < g.np a) → ∃ u, u < s.npatches ∧ g.coord u = c

theorem owner_exists {D : Type} {s : Sync k D} {g : Place k} {off : D → Fin k → Int} {opp : D → D}
    (hs : Shape s off opp) (hg : NbrGeo s g off) (ha : AllLocal s g) {t : Nat} (ht : t < s.npatches)
    {w : Fin k → Int} (hw : InRange s.n s.ng w) :
    ∃ u v, u < s.npatches ∧ Own s.n v ∧ g.Same s.n t w u v := by
  have hb := hg.bound t ht
  obtain ⟨u, hu, hcu⟩ := ha.full
    (fun a => (((g.coord t a : Int) + side (s.n a) (w a)) % (g.np a : Int)).toNat) (fun a => by
      have h1 := hb a
      have h2 := Int.emod_lt_of_pos ((g.coord t a : Int) + side (s.n a) (w a)) (b := (g.np a : Int)) (by omega)
      have h3 := Int.emod_nonneg ((g.coord t a : Int) + side (s.n a) (w a)) (b := (g.np a : Int)) (by omega)
      omega)
  have hv' : Own s.n fun a => w a - side (s.n a) (w a) * s.n a := fun a => src_own (hs.thick a) (hw a)
  refine ⟨u, _, hu, hv', (same_iff hs hg hu hw hv').mpr ⟨fun a => ?_, rfl⟩⟩
  refine ⟨hg.bound u hu a, ?_⟩
  rw [if_pos (ha.periodic a), hcu]
  have h1 := hb a
  have h3 := Int.emod_nonneg ((g.coord t a : Int) + side (s.n a) (w a)) (b := (g.np a : Int)) (by omega)
  rw [Int.toNat_of_nonneg h3]
  exact Int.mod_modEq _ _

theorem same_global {g : Place k} {n : Fin k → Nat} {t u : Nat} {w v : Fin k → Int}
    (hp : ∀ a, (g.bc a).lo = .periodic) (h : g.Same n t w u v) (a : Fin k) :
    globalCell n (g.coord t) w a ≡ globalCell n (g.coord u) v a [ZMOD (g.np a * n a : Int)] := by
  have := h a
  unfold SameAxis at this
  rw [if_pos (hp a)] at this
  exact this

/-- a guard exchange turns "own cells show G" into "all cells show G" -/
theorem sync_shows {D : Type} {s : Sync k D} {g : Place k} {off : D → Fin k → Int} {opp : D → D}
    (hs : Shape s off opp) (hg : NbrGeo s g off)
    (ht : ∀ b a, s.tab b a = guardRng (s.n a) s.ng (off b a)) (ha : AllLocal s g) {G : V3 k}
    (hper : Periodic g.np s.n G) {A A' : Nat → Fin 3 → Arr k}
    (hrun : ∀ c, s.GuardRun (fun l => A l.1 c l.2) (fun l => A' l.1 c l.2))
    (hown : Shows s.n s.ng s.npatches g (Own s.n) A G) :
    Shows s.n s.ng s.npatches g (InRange s.n s.ng) A' G := by
  intro t htt d w hw
  obtain ⟨u, v, hu, hv, hsame⟩ := owner_exists hs hg ha htt hw
  have := (guard_global hs hg ht (hrun d)).2.1 t w u v htt hu hw hv hsame
  dsimp only at this
  rw [this, hown u hu d v hv]
  exact (hper d _ _ (same_global ha.periodic hsame)).symm

theorem dn_inRange {n : Fin k → Nat} {ng : Nat} (hng : 1 ≤ ng) {v : Fin k → Int} (hv : Own n v) (x : Fin k) :
    InRange n ng (dn x v) := by
  intro a
  have := hv a
  unfold dn; split <;> omega
theorem up_inRange {n : Fin k → Nat} {ng : Nat} (hng : 1 ≤ ng) {v : Fin k → Int} (hv : Own n v) (x : Fin k) :
    InRange n ng (up x v) := by
  intro a
  have := hv a
  unfold up; split <;> omega

/-- all fields of all patches show the global fields, guard cells included (currents: own cells) -/
structure Rep {D : Type} (S : Solver k D) (g : Place k) (σ : Dom k) (G : GF k) : Prop where
  e : Shows S.sync.n S.sync.ng S.sync.npatches g (InRange S.sync.n S.sync.ng) (fun t => (σ t).e) G.e
  b : Shows S.sync.n S.sync.ng S.sync.npatches g (InRange S.sync.n S.sync.ng) (fun t => (σ t).b) G.b
  j : Shows S.sync.n S.sync.ng S.sync.npatches g (Own S.sync.n) (fun t => (σ t).j) G.j

variable {D : Type} {S : Solver k D} {g : Place k} {off : D → Fin k → Int} {opp : D → D}

theorem stepE_sync (hs : Shape S.sync off opp) (hg : NbrGeo S.sync g off)
    (ht : ∀ b a, S.sync.tab b a = guardRng (S.sync.n a) S.sync.ng (off b a)) (ha : AllLocal S.sync g)
    (hk : KernelOK S FE FB) (hl : LocalFE FE) (hng : 1 ≤ S.sync.ng) {σ σ' : Dom k} {G : GF k}
    (hper : G.Per g.np S.sync.n) (hrep : Rep S g σ G) (dt : ℚ) (hsync : S.SyncE (S.stepE dt σ) σ') :
    Rep S g σ' (G.stepE FE dt) := by
  have hrun := hsync.1
  have hb : ∀ t, t < S.sync.npatches → (σ' t).b = (σ t).b ∧ (σ' t).j = (σ t).j := by
    intro t htt
    have h := hsync.2 t
    unfold Solver.stepE at h
    rw [if_pos htt] at h
    exact ⟨h.1.trans (hk.eB dt (σ t)).1, h.2.trans (hk.eB dt (σ t)).2⟩
  refine ⟨?_, ?_, ?_⟩
  · refine sync_shows (A := fun t => (S.stepE dt σ t).e) (A' := fun t => (σ' t).e) hs hg ht ha
      (hper.stepE hl dt).e hrun ?_
    intro t htt d v hv
    show (S.stepE dt σ t).e d _ = G.e d _ + FE dt G.b G.j d _
    unfold Solver.stepE
    rw [if_pos htt, hk.eE dt (σ t) d v hv]
    refine congrArg₂ (· + ·) (hrep.e t htt d v (hv.inRange _)) ?_
    show _ = FE dt G.b G.j d fun a => ((g.coord t a * S.sync.n a : Int)) + v a
    rw [hl.shift dt G.b G.j d v (fun a => (g.coord t a * S.sync.n a : Int))]
    apply hl.loc
    · intro d; exact hrep.b t htt d v (hv.inRange _)
    · intro d a; exact hrep.b t htt d (dn a v) (dn_inRange hng hv a)
    · intro d; exact hrep.j t htt d v hv
  · intro t htt d v hv
    show (σ' t).b d _ = G.b d _
    rw [(hb t htt).1]; exact hrep.b t htt d v hv
  · intro t htt d v hv
    show (σ' t).j d _ = G.j d _
    rw [(hb t htt).2]; exact hrep.j t htt d v hv

theorem stepB_sync (hs : Shape S.sync off opp) (hg : NbrGeo S.sync g off)
    (ht : ∀ b a, S.sync.tab b a = guardRng (S.sync.n a) S.sync.ng (off b a)) (ha : AllLocal S.sync g)
    (hk : KernelOK S FE FB) (hl : LocalFB FB) (hng : 1 ≤ S.sync.ng) {σ σ' : Dom k} {G : GF k}
    (hper : G.Per g.np S.sync.n) (hrep : Rep S g σ G) (dt : ℚ) (hsync : S.SyncB (S.stepB dt σ) σ') :
    Rep S g σ' (G.stepB FB dt) := by
  have hrun := hsync.1
  have hb : ∀ t, t < S.sync.npatches → (σ' t).e = (σ t).e ∧ (σ' t).j = (σ t).j := by
    intro t htt
    have h := hsync.2 t
    unfold Solver.stepB at h
    rw [if_pos htt] at h
    exact ⟨h.1.trans (hk.bE dt (σ t)).1, h.2.trans (hk.bE dt (σ t)).2⟩
  refine ⟨?_, ?_, ?_⟩
  · intro t htt d v hv
    show (σ' t).e d _ = G.e d _
    rw [(hb t htt).1]; exact hrep.e t htt d v hv
  · refine sync_shows (A := fun t => (S.stepB dt σ t).b) (A' := fun t => (σ' t).b) hs hg ht ha
      (hper.stepB hl dt).b hrun ?_
    intro t htt d v hv
    show (S.stepB dt σ t).b d _ = G.b d _ + FB dt G.e d _
    unfold Solver.stepB
    rw [if_pos htt, hk.bB dt (σ t) d v hv]
    refine congrArg₂ (· + ·) (hrep.b t htt d v (hv.inRange _)) ?_
    show _ = FB dt G.e d fun a => ((g.coord t a * S.sync.n a : Int)) + v a
    rw [hl.shift dt G.e d v (fun a => (g.coord t a * S.sync.n a : Int))]
    apply hl.loc
    · intro d; exact hrep.e t htt d v (hv.inRange _)
    · intro d a; exact hrep.e t htt d (up a v) (up_inRange hng hv a)
  · intro t htt d v hv
    show (σ' t).j d _ = G.j d _
    rw [(hb t htt).2]; exact hrep.j t htt d v hv

/-- one time step whose deposited current is the global current `J` -/
def StepWith (S : Solver k D) (g : Place k) (dt : ℚ) (J : V3 k) (σ σ' : Dom k) : Prop :=
  ∃ σ1 σ2, S.Half1 dt σ σ1 ∧ Deposit σ1 σ2 ∧
    Shows S.sync.n S.sync.ng S.sync.npatches g (Own S.sync.n) (fun t => (σ2 t).j) J ∧ S.Half2 dt σ2 σ'

theorem step_rep (hs : Shape S.sync off opp) (hg : NbrGeo S.sync g off)
    (ht : ∀ b a, S.sync.tab b a = guardRng (S.sync.n a) S.sync.ng (off b a)) (ha : AllLocal S.sync g)
    (hk : KernelOK S FE FB) (hlE : LocalFE FE) (hlB : LocalFB FB) (hng : 1 ≤ S.sync.ng) {σ σ' : Dom k}
    {G : GF k} (hper : G.Per g.np S.sync.n) (hrep : Rep S g σ G) (dt : ℚ) {J : V3 k}
    (hJ : Periodic g.np S.sync.n J) (hstep : StepWith S g dt J σ σ') :
    Rep S g σ' (G.step FE FB dt J) ∧ (G.step FE FB dt J).Per g.np S.sync.n := by
  obtain ⟨σ1, σ2, ⟨τ, h1, h2⟩, hd, hj, ⟨υ, h3, h4⟩⟩ := hstep
  have r1 := stepE_sync hs hg ht ha hk hlE hng hper hrep _ h1
  have p1 := hper.stepE hlE (1 / 2 * dt)
  have r2 := stepB_sync hs hg ht ha hk hlB hng p1 r1 _ h2
  have p2 := p1.stepB hlB (1 / 2 * dt)
  let G2 : GF k := { (G.stepE FE (1 / 2 * dt)).stepB FB (1 / 2 * dt) with j := J }
  have p3 : G2.Per g.np S.sync.n := ⟨p2.e, p2.b, hJ⟩
  have r3 : Rep S g σ2 G2 := by
    refine ⟨?_, ?_, hj⟩
    · intro t htt d v hv
      show (σ2 t).e d _ = _
      rw [(hd t).1]; exact r2.e t htt d v hv
    · intro t htt d v hv
      show (σ2 t).b d _ = _
      rw [(hd t).2]; exact r2.b t htt d v hv
  have r4 := stepB_sync hs hg ht ha hk hlB hng p3 r3 _ h3
  have p4 := p3.stepB hlB (1 / 2 * dt)
  have r5 := stepE_sync hs hg ht ha hk hlE hng p4 r4 _ h4
  exact ⟨r5, p4.stepE hlE (1 / 2 * dt)⟩

/-- the fields on the undivided grid after `n` steps -/
def GF.run (FE : ℚ → V3 k → V3 k → V3 k) (FB : ℚ → V3 k → V3 k) (dt : ℚ) (J : Nat → V3 k) (G : GF k) :
    Nat → GF k
  | 0 => G
  | n + 1 => (GF.run FE FB dt J G n).step FE FB dt (J n)

theorem run_rep (hs : Shape S.sync off opp) (hg : NbrGeo S.sync g off)
    (ht : ∀ b a, S.sync.tab b a = guardRng (S.sync.n a) S.sync.ng (off b a)) (ha : AllLocal S.sync g)
    (hk : KernelOK S FE FB) (hlE : LocalFE FE) (hlB : LocalFB FB) (hng : 1 ≤ S.sync.ng)
    {σ : Nat → Dom k} {G : GF k} (hper : G.Per g.np S.sync.n) (hrep : Rep S g (σ 0) G) (dt : ℚ)
    {J : Nat → V3 k} (hJ : ∀ i, Periodic g.np S.sync.n (J i))
    (hstep : ∀ i, StepWith S g dt (J i) (σ i) (σ (i + 1))) (n : Nat) :
    Rep S g (σ n) (GF.run FE FB dt J G n) ∧ (GF.run FE FB dt J G n).Per g.np S.sync.n := by
  induction n with
  | zero => exact ⟨hrep, hper⟩
  | succ n ih =>
    exact step_rep hs hg ht ha hk hlE hlB hng ih.2 ih.1 dt (hJ n) (hstep n)
end

end Verif.Maxwell
