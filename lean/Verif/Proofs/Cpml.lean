import Verif.Spec.Cpml
import Mathlib.Tactic.Ring
import Mathlib.Tactic.Linarith
/-!
# Closed form of the absorbing layer kernels
-/
namespace Verif.Cpml
open SyncFields Maxwell

theorem put_same {k : Nat} (A : Arr k) (c : Fin k → Int) (x : ℚ) : put A c x c = x := if_pos rfl

theorem cs01 : curlSign 0 1 = 1 := rfl
theorem cs02 : curlSign 0 2 = -1 := rfl
theorem cs10 : curlSign 1 0 = -1 := rfl
theorem cs12 : curlSign 1 2 = 1 := rfl
theorem cs20 : curlSign 2 0 = 1 := rfl
theorem cs21 : curlSign 2 1 = -1 := rfl
theorem csd (a : Fin 3) : curlSign a a = 0 := by
  match a with
  | 0 => rfl
  | 1 => rfl
  | 2 => rfl

variable {k : Nat}

/-- a loop that renews auxiliary fields and adds them to E -/
theorem fold_pe (n : Fin k → Nat) (ng : Nat) (A : Fin 3) (body : Fields k × (Fin 3 → Arr k) → (Fin k → Nat) → Fields k × (Fin 3 → Arr k))
    (V : (Fin 3 → Arr k) → ℚ → Fin 3 → (Fin k → Nat) → ℚ) (s : Fin 3 → ℚ)
    (hbody : ∀ f ψ u, (body (f, ψ) u).1.b = f.b ∧ (body (f, ψ) u).1.j = f.j ∧ (body (f, ψ) u).2 A = ψ A ∧ (body (f, ψ) u).1.e A = f.e A ∧
      ∀ d, d ≠ A →
        (body (f, ψ) u).2 d = put (ψ d) (index n ng fun a => u a) (V f.b (ψ d (index n ng fun a => u a)) d u) ∧
        (body (f, ψ) u).1.e d = put (f.e d) (index n ng fun a => u a)
          (f.e d (index n ng fun a => u a) + s d * V f.b (ψ d (index n ng fun a => u a)) d u)) :
    ∀ (l : List (Fin k → Nat)), (∀ u ∈ l, ∀ a, u a < n a) → l.Nodup → ∀ (f : Fields k) (ψ : Fin 3 → Arr k),
      (l.foldl body (f, ψ)).1.b = f.b ∧ (l.foldl body (f, ψ)).1.j = f.j ∧ (l.foldl body (f, ψ)).2 A = ψ A ∧
      (l.foldl body (f, ψ)).1.e A = f.e A ∧
      (∀ d, d ≠ A → ∀ u ∈ l,
        (l.foldl body (f, ψ)).2 d (index n ng fun a => u a) = V f.b (ψ d (index n ng fun a => u a)) d u ∧
        (l.foldl body (f, ψ)).1.e d (index n ng fun a => u a) =
          f.e d (index n ng fun a => u a) + s d * V f.b (ψ d (index n ng fun a => u a)) d u) ∧
      (∀ d x, (∀ u ∈ l, (index n ng fun a => (u a : Int)) ≠ x) →
        (l.foldl body (f, ψ)).2 d x = ψ d x ∧ (l.foldl body (f, ψ)).1.e d x = f.e d x)
  | [], _, _, f, ψ => ⟨rfl, rfl, rfl, rfl, by simp, fun _ _ _ => ⟨rfl, rfl⟩⟩
  | u :: l, hb, hnd, f, ψ => by
    rw [List.nodup_cons] at hnd
    rw [List.foldl_cons]
    obtain ⟨h1, h2, h3, h4, h5⟩ := hbody f ψ u
    obtain ⟨i1, i2, i3, i4, i5, i6⟩ := fold_pe n ng A body V s hbody l (fun w hw => hb w (by simp [hw])) hnd.2 (body (f, ψ) u).1 (body (f, ψ) u).2
    have hown : ∀ w ∈ u :: l, Own n fun a => (w a : Int) := fun w hw a => by
      have := hb w hw a; constructor <;> dsimp only <;> omega
    have hne : ∀ w ∈ l, (index n ng fun a => (w a : Int)) ≠ index n ng fun a => (u a : Int) := by
      intro w hw e
      have := index_inj ((hown w (by simp [hw])).inRange ng) ((hown u (by simp)).inRange ng) e
      have h : w = u := funext fun a => by have := congrFun this a; simpa using this
      exact hnd.1 (h ▸ hw)
    refine ⟨i1.trans h1, i2.trans h2, i3.trans h3, i4.trans h4, ?_, ?_⟩
    · intro d hd w hw
      obtain ⟨g1, g2⟩ := h5 d hd
      rcases List.mem_cons.mp hw with rfl | hw'
      · rw [(i6 d _ hne).1, (i6 d _ hne).2, g1, g2]
        exact ⟨put_same _ _ _, put_same _ _ _⟩
      · rw [(i5 d hd w hw').1, (i5 d hd w hw').2, h1, g1, g2]
        have e1 : ∀ (A : Arr k) (x : ℚ), put A (index n ng fun a => (u a : Int)) x (index n ng fun a => (w a : Int)) =
            A (index n ng fun a => (w a : Int)) := fun A x => if_neg (hne w hw')
        rw [e1, e1]
        exact ⟨rfl, rfl⟩
    · intro d x hx
      rw [(i6 d x (fun w hw => hx w (by simp [hw]))).1, (i6 d x (fun w hw => hx w (by simp [hw]))).2]
      by_cases hd : d = A
      · rw [hd, h3, h4]
        exact ⟨rfl, rfl⟩
      · obtain ⟨g1, g2⟩ := h5 d hd
        have e1 : ∀ (A : Arr k) (y : ℚ), put A (index n ng fun a => (u a : Int)) y x = A x := fun A y => if_neg (fun e => hx u (by simp) e.symm)
        rw [g1, g2, e1, e1]
        exact ⟨rfl, rfl⟩

/-- a loop that renews auxiliary fields and adds them to B -/
theorem fold_pb (n : Fin k → Nat) (ng : Nat) (A : Fin 3) (body : Fields k × (Fin 3 → Arr k) → (Fin k → Nat) → Fields k × (Fin 3 → Arr k))
    (V : (Fin 3 → Arr k) → ℚ → Fin 3 → (Fin k → Nat) → ℚ) (s : Fin 3 → ℚ)
    (hbody : ∀ f ψ u, (body (f, ψ) u).1.e = f.e ∧ (body (f, ψ) u).1.j = f.j ∧ (body (f, ψ) u).2 A = ψ A ∧ (body (f, ψ) u).1.b A = f.b A ∧
      ∀ d, d ≠ A →
        (body (f, ψ) u).2 d = put (ψ d) (index n ng fun a => u a) (V f.e (ψ d (index n ng fun a => u a)) d u) ∧
        (body (f, ψ) u).1.b d = put (f.b d) (index n ng fun a => u a)
          (f.b d (index n ng fun a => u a) + s d * V f.e (ψ d (index n ng fun a => u a)) d u)) :
    ∀ (l : List (Fin k → Nat)), (∀ u ∈ l, ∀ a, u a < n a) → l.Nodup → ∀ (f : Fields k) (ψ : Fin 3 → Arr k),
      (l.foldl body (f, ψ)).1.e = f.e ∧ (l.foldl body (f, ψ)).1.j = f.j ∧ (l.foldl body (f, ψ)).2 A = ψ A ∧
      (l.foldl body (f, ψ)).1.b A = f.b A ∧
      (∀ d, d ≠ A → ∀ u ∈ l,
        (l.foldl body (f, ψ)).2 d (index n ng fun a => u a) = V f.e (ψ d (index n ng fun a => u a)) d u ∧
        (l.foldl body (f, ψ)).1.b d (index n ng fun a => u a) =
          f.b d (index n ng fun a => u a) + s d * V f.e (ψ d (index n ng fun a => u a)) d u) ∧
      (∀ d x, (∀ u ∈ l, (index n ng fun a => (u a : Int)) ≠ x) →
        (l.foldl body (f, ψ)).2 d x = ψ d x ∧ (l.foldl body (f, ψ)).1.b d x = f.b d x)
  | [], _, _, f, ψ => ⟨rfl, rfl, rfl, rfl, by simp, fun _ _ _ => ⟨rfl, rfl⟩⟩
  | u :: l, hb, hnd, f, ψ => by
    rw [List.nodup_cons] at hnd
    rw [List.foldl_cons]
    obtain ⟨h1, h2, h3, h4, h5⟩ := hbody f ψ u
    obtain ⟨i1, i2, i3, i4, i5, i6⟩ := fold_pb n ng A body V s hbody l (fun w hw => hb w (by simp [hw])) hnd.2 (body (f, ψ) u).1 (body (f, ψ) u).2
    have hown : ∀ w ∈ u :: l, Own n fun a => (w a : Int) := fun w hw a => by
      have := hb w hw a; constructor <;> dsimp only <;> omega
    have hne : ∀ w ∈ l, (index n ng fun a => (w a : Int)) ≠ index n ng fun a => (u a : Int) := by
      intro w hw e
      have := index_inj ((hown w (by simp [hw])).inRange ng) ((hown u (by simp)).inRange ng) e
      have h : w = u := funext fun a => by have := congrFun this a; simpa using this
      exact hnd.1 (h ▸ hw)
    refine ⟨i1.trans h1, i2.trans h2, i3.trans h3, i4.trans h4, ?_, ?_⟩
    · intro d hd w hw
      obtain ⟨g1, g2⟩ := h5 d hd
      rcases List.mem_cons.mp hw with rfl | hw'
      · rw [(i6 d _ hne).1, (i6 d _ hne).2, g1, g2]
        exact ⟨put_same _ _ _, put_same _ _ _⟩
      · rw [(i5 d hd w hw').1, (i5 d hd w hw').2, h1, g1, g2]
        have e1 : ∀ (A : Arr k) (x : ℚ), put A (index n ng fun a => (u a : Int)) x (index n ng fun a => (w a : Int)) =
            A (index n ng fun a => (w a : Int)) := fun A x => if_neg (hne w hw')
        rw [e1, e1]
        exact ⟨rfl, rfl⟩
    · intro d x hx
      rw [(i6 d x (fun w hw => hx w (by simp [hw]))).1, (i6 d x (fun w hw => hx w (by simp [hw]))).2]
      by_cases hd : d = A
      · rw [hd, h3, h4]
        exact ⟨rfl, rfl⟩
      · obtain ⟨g1, g2⟩ := h5 d hd
        have e1 : ∀ (A : Arr k) (y : ℚ), put A (index n ng fun a => (u a : Int)) y x = A x := fun A y => if_neg (fun e => hx u (by simp) e.symm)
        rw [g1, g2, e1, e1]
        exact ⟨rfl, rfl⟩

theorem psiXE2_form (nx ny ng : Nat) (P : Par 2) (dt : ℚ) (ex : ℚ → ℚ) (kappa sigma a : Nat → ℚ) (f : Fields 2) (ψ : Fin 3 → Arr 2) (u : Fin 2 → Nat) :
    let r := psiXE2 nx ny ng P dt ex kappa sigma a (f, ψ) u
    r.1.b = f.b ∧ r.1.j = f.j ∧ r.2 (comp (0 : Fin 2)) = ψ (comp (0 : Fin 2)) ∧
    r.1.e (comp (0 : Fin 2)) = f.e (comp (0 : Fin 2)) ∧
    ∀ d, d ≠ comp (0 : Fin 2) →
      r.2 d = put (ψ d) (index ![nx, ny] ng fun a => u a) ((ex (-(sigma (u 0) / kappa (u 0) + a (u 0)) * dt)) * ψ d (index ![nx, ny] ng fun a => u a) + ccoeff (ex (-(sigma (u 0) / kappa (u 0) + a (u 0)) * dt)) (kappa (u 0)) (sigma (u 0)) (a (u 0)) (P.d 0) * diffB (cellsOf ![nx, ny] ng f.b) (0 : Fin 2) d fun a => u a) ∧
      r.1.e d = put (f.e d) (index ![nx, ny] ng fun a => u a) (f.e d (index ![nx, ny] ng fun a => u a) + curlSign d (comp (0 : Fin 2)) * (dt * P.c2) * ((ex (-(sigma (u 0) / kappa (u 0) + a (u 0)) * dt)) * ψ d (index ![nx, ny] ng fun a => u a) + ccoeff (ex (-(sigma (u 0) / kappa (u 0) + a (u 0)) * dt)) (kappa (u 0)) (sigma (u 0)) (a (u 0)) (P.d 0) * diffB (cellsOf ![nx, ny] ng f.b) (0 : Fin 2) d fun a => u a)) := by
  refine ⟨rfl, rfl, rfl, rfl, ?_⟩
  intro d hd
  match d with
  | 0 => exact absurd rfl hd
  | 1 =>
    have h1 : (psiXE2 nx ny ng P dt ex kappa sigma a (f, ψ) u).2 1 = put (ψ 1) (at2 nx ny ng (u 0) (u 1)) ((ex (-(sigma (u 0) / kappa (u 0) + a (u 0)) * dt)) * ψ 1 (at2 nx ny ng (u 0) (u 1)) + ccoeff (ex (-(sigma (u 0) / kappa (u 0) + a (u 0)) * dt)) (kappa (u 0)) (sigma (u 0)) (a (u 0)) (P.d 0) * (f.b 2 (at2 nx ny ng (u 0) (u 1)) - f.b 2 (at2 nx ny ng ((u 0 : Int) - 1) (u 1)))) := rfl
    have h2 : (psiXE2 nx ny ng P dt ex kappa sigma a (f, ψ) u).1.e 1 = put (f.e 1) (at2 nx ny ng (u 0) (u 1)) (f.e 1 (at2 nx ny ng (u 0) (u 1)) - (dt * P.c2) * put (ψ 1) (at2 nx ny ng (u 0) (u 1)) ((ex (-(sigma (u 0) / kappa (u 0) + a (u 0)) * dt)) * ψ 1 (at2 nx ny ng (u 0) (u 1)) + ccoeff (ex (-(sigma (u 0) / kappa (u 0) + a (u 0)) * dt)) (kappa (u 0)) (sigma (u 0)) (a (u 0)) (P.d 0) * (f.b 2 (at2 nx ny ng (u 0) (u 1)) - f.b 2 (at2 nx ny ng ((u 0 : Int) - 1) (u 1)))) (at2 nx ny ng (u 0) (u 1))) := rfl
    have hD : diffB (cellsOf ![nx, ny] ng f.b) (0 : Fin 2) 1 (fun a => (u a : Int)) = (f.b 2 (at2 nx ny ng (u 0) (u 1)) - f.b 2 (at2 nx ny ng ((u 0 : Int) - 1) (u 1))) := by
      rw [at2_own, at2_dn0]; rfl
    have hs : curlSign 1 (comp (0 : Fin 2)) = -1 := rfl
    rw [h1, h2, put_same, hD, hs, at2_own]
    refine ⟨rfl, ?_⟩
    congr 1
    ring
  | 2 =>
    have h1 : (psiXE2 nx ny ng P dt ex kappa sigma a (f, ψ) u).2 2 = put (ψ 2) (at2 nx ny ng (u 0) (u 1)) ((ex (-(sigma (u 0) / kappa (u 0) + a (u 0)) * dt)) * ψ 2 (at2 nx ny ng (u 0) (u 1)) + ccoeff (ex (-(sigma (u 0) / kappa (u 0) + a (u 0)) * dt)) (kappa (u 0)) (sigma (u 0)) (a (u 0)) (P.d 0) * (f.b 1 (at2 nx ny ng (u 0) (u 1)) - f.b 1 (at2 nx ny ng ((u 0 : Int) - 1) (u 1)))) := rfl
    have h2 : (psiXE2 nx ny ng P dt ex kappa sigma a (f, ψ) u).1.e 2 = put (f.e 2) (at2 nx ny ng (u 0) (u 1)) (f.e 2 (at2 nx ny ng (u 0) (u 1)) + (dt * P.c2) * put (ψ 2) (at2 nx ny ng (u 0) (u 1)) ((ex (-(sigma (u 0) / kappa (u 0) + a (u 0)) * dt)) * ψ 2 (at2 nx ny ng (u 0) (u 1)) + ccoeff (ex (-(sigma (u 0) / kappa (u 0) + a (u 0)) * dt)) (kappa (u 0)) (sigma (u 0)) (a (u 0)) (P.d 0) * (f.b 1 (at2 nx ny ng (u 0) (u 1)) - f.b 1 (at2 nx ny ng ((u 0 : Int) - 1) (u 1)))) (at2 nx ny ng (u 0) (u 1))) := rfl
    have hD : diffB (cellsOf ![nx, ny] ng f.b) (0 : Fin 2) 2 (fun a => (u a : Int)) = (f.b 1 (at2 nx ny ng (u 0) (u 1)) - f.b 1 (at2 nx ny ng ((u 0 : Int) - 1) (u 1))) := by
      rw [at2_own, at2_dn0]; rfl
    have hs : curlSign 2 (comp (0 : Fin 2)) = 1 := rfl
    rw [h1, h2, put_same, hD, hs, at2_own]
    refine ⟨rfl, ?_⟩
    congr 1
    ring

theorem psiXB2_form (nx ny ng : Nat) (P : Par 2) (dt : ℚ) (ex : ℚ → ℚ) (kappa sigma a : Nat → ℚ) (f : Fields 2) (ψ : Fin 3 → Arr 2) (u : Fin 2 → Nat) :
    let r := psiXB2 nx ny ng P dt ex kappa sigma a (f, ψ) u
    r.1.e = f.e ∧ r.1.j = f.j ∧ r.2 (comp (0 : Fin 2)) = ψ (comp (0 : Fin 2)) ∧
    r.1.b (comp (0 : Fin 2)) = f.b (comp (0 : Fin 2)) ∧
    ∀ d, d ≠ comp (0 : Fin 2) →
      r.2 d = put (ψ d) (index ![nx, ny] ng fun a => u a) ((ex (-(sigma (u 0) / kappa (u 0) + a (u 0)) * dt)) * ψ d (index ![nx, ny] ng fun a => u a) + ccoeff (ex (-(sigma (u 0) / kappa (u 0) + a (u 0)) * dt)) (kappa (u 0)) (sigma (u 0)) (a (u 0)) (P.d 0) * diffE (cellsOf ![nx, ny] ng f.e) (0 : Fin 2) d fun a => u a) ∧
      r.1.b d = put (f.b d) (index ![nx, ny] ng fun a => u a) (f.b d (index ![nx, ny] ng fun a => u a) + -(curlSign d (comp (0 : Fin 2)) * dt) * ((ex (-(sigma (u 0) / kappa (u 0) + a (u 0)) * dt)) * ψ d (index ![nx, ny] ng fun a => u a) + ccoeff (ex (-(sigma (u 0) / kappa (u 0) + a (u 0)) * dt)) (kappa (u 0)) (sigma (u 0)) (a (u 0)) (P.d 0) * diffE (cellsOf ![nx, ny] ng f.e) (0 : Fin 2) d fun a => u a)) := by
  refine ⟨rfl, rfl, rfl, rfl, ?_⟩
  intro d hd
  match d with
  | 0 => exact absurd rfl hd
  | 1 =>
    have h1 : (psiXB2 nx ny ng P dt ex kappa sigma a (f, ψ) u).2 1 = put (ψ 1) (at2 nx ny ng (u 0) (u 1)) ((ex (-(sigma (u 0) / kappa (u 0) + a (u 0)) * dt)) * ψ 1 (at2 nx ny ng (u 0) (u 1)) + ccoeff (ex (-(sigma (u 0) / kappa (u 0) + a (u 0)) * dt)) (kappa (u 0)) (sigma (u 0)) (a (u 0)) (P.d 0) * (f.e 2 (at2 nx ny ng ((u 0 : Int) + 1) (u 1)) - f.e 2 (at2 nx ny ng (u 0) (u 1)))) := rfl
    have h2 : (psiXB2 nx ny ng P dt ex kappa sigma a (f, ψ) u).1.b 1 = put (f.b 1) (at2 nx ny ng (u 0) (u 1)) (f.b 1 (at2 nx ny ng (u 0) (u 1)) + dt * put (ψ 1) (at2 nx ny ng (u 0) (u 1)) ((ex (-(sigma (u 0) / kappa (u 0) + a (u 0)) * dt)) * ψ 1 (at2 nx ny ng (u 0) (u 1)) + ccoeff (ex (-(sigma (u 0) / kappa (u 0) + a (u 0)) * dt)) (kappa (u 0)) (sigma (u 0)) (a (u 0)) (P.d 0) * (f.e 2 (at2 nx ny ng ((u 0 : Int) + 1) (u 1)) - f.e 2 (at2 nx ny ng (u 0) (u 1)))) (at2 nx ny ng (u 0) (u 1))) := rfl
    have hD : diffE (cellsOf ![nx, ny] ng f.e) (0 : Fin 2) 1 (fun a => (u a : Int)) = (f.e 2 (at2 nx ny ng ((u 0 : Int) + 1) (u 1)) - f.e 2 (at2 nx ny ng (u 0) (u 1))) := by
      rw [at2_own, at2_up0]; rfl
    have hs : curlSign 1 (comp (0 : Fin 2)) = -1 := rfl
    rw [h1, h2, put_same, hD, hs, at2_own]
    refine ⟨rfl, ?_⟩
    congr 1
    ring
  | 2 =>
    have h1 : (psiXB2 nx ny ng P dt ex kappa sigma a (f, ψ) u).2 2 = put (ψ 2) (at2 nx ny ng (u 0) (u 1)) ((ex (-(sigma (u 0) / kappa (u 0) + a (u 0)) * dt)) * ψ 2 (at2 nx ny ng (u 0) (u 1)) + ccoeff (ex (-(sigma (u 0) / kappa (u 0) + a (u 0)) * dt)) (kappa (u 0)) (sigma (u 0)) (a (u 0)) (P.d 0) * (f.e 1 (at2 nx ny ng ((u 0 : Int) + 1) (u 1)) - f.e 1 (at2 nx ny ng (u 0) (u 1)))) := rfl
    have h2 : (psiXB2 nx ny ng P dt ex kappa sigma a (f, ψ) u).1.b 2 = put (f.b 2) (at2 nx ny ng (u 0) (u 1)) (f.b 2 (at2 nx ny ng (u 0) (u 1)) - dt * put (ψ 2) (at2 nx ny ng (u 0) (u 1)) ((ex (-(sigma (u 0) / kappa (u 0) + a (u 0)) * dt)) * ψ 2 (at2 nx ny ng (u 0) (u 1)) + ccoeff (ex (-(sigma (u 0) / kappa (u 0) + a (u 0)) * dt)) (kappa (u 0)) (sigma (u 0)) (a (u 0)) (P.d 0) * (f.e 1 (at2 nx ny ng ((u 0 : Int) + 1) (u 1)) - f.e 1 (at2 nx ny ng (u 0) (u 1)))) (at2 nx ny ng (u 0) (u 1))) := rfl
    have hD : diffE (cellsOf ![nx, ny] ng f.e) (0 : Fin 2) 2 (fun a => (u a : Int)) = (f.e 1 (at2 nx ny ng ((u 0 : Int) + 1) (u 1)) - f.e 1 (at2 nx ny ng (u 0) (u 1))) := by
      rw [at2_own, at2_up0]; rfl
    have hs : curlSign 2 (comp (0 : Fin 2)) = 1 := rfl
    rw [h1, h2, put_same, hD, hs, at2_own]
    refine ⟨rfl, ?_⟩
    congr 1
    ring

theorem psiYE2_form (nx ny ng : Nat) (P : Par 2) (dt : ℚ) (ex : ℚ → ℚ) (kappa sigma a : Nat → ℚ) (f : Fields 2) (ψ : Fin 3 → Arr 2) (u : Fin 2 → Nat) :
    let r := psiYE2 nx ny ng P dt ex kappa sigma a (f, ψ) u
    r.1.b = f.b ∧ r.1.j = f.j ∧ r.2 (comp (1 : Fin 2)) = ψ (comp (1 : Fin 2)) ∧
    r.1.e (comp (1 : Fin 2)) = f.e (comp (1 : Fin 2)) ∧
    ∀ d, d ≠ comp (1 : Fin 2) →
      r.2 d = put (ψ d) (index ![nx, ny] ng fun a => u a) ((ex (-(sigma (u 1) / kappa (u 1) + a (u 1)) * dt)) * ψ d (index ![nx, ny] ng fun a => u a) + ccoeff (ex (-(sigma (u 1) / kappa (u 1) + a (u 1)) * dt)) (kappa (u 1)) (sigma (u 1)) (a (u 1)) (P.d 1) * diffB (cellsOf ![nx, ny] ng f.b) (1 : Fin 2) d fun a => u a) ∧
      r.1.e d = put (f.e d) (index ![nx, ny] ng fun a => u a) (f.e d (index ![nx, ny] ng fun a => u a) + curlSign d (comp (1 : Fin 2)) * (dt * P.c2) * ((ex (-(sigma (u 1) / kappa (u 1) + a (u 1)) * dt)) * ψ d (index ![nx, ny] ng fun a => u a) + ccoeff (ex (-(sigma (u 1) / kappa (u 1) + a (u 1)) * dt)) (kappa (u 1)) (sigma (u 1)) (a (u 1)) (P.d 1) * diffB (cellsOf ![nx, ny] ng f.b) (1 : Fin 2) d fun a => u a)) := by
  refine ⟨rfl, rfl, rfl, rfl, ?_⟩
  intro d hd
  match d with
  | 0 =>
    have h1 : (psiYE2 nx ny ng P dt ex kappa sigma a (f, ψ) u).2 0 = put (ψ 0) (at2 nx ny ng (u 0) (u 1)) ((ex (-(sigma (u 1) / kappa (u 1) + a (u 1)) * dt)) * ψ 0 (at2 nx ny ng (u 0) (u 1)) + ccoeff (ex (-(sigma (u 1) / kappa (u 1) + a (u 1)) * dt)) (kappa (u 1)) (sigma (u 1)) (a (u 1)) (P.d 1) * (f.b 2 (at2 nx ny ng (u 0) (u 1)) - f.b 2 (at2 nx ny ng (u 0) ((u 1 : Int) - 1)))) := rfl
    have h2 : (psiYE2 nx ny ng P dt ex kappa sigma a (f, ψ) u).1.e 0 = put (f.e 0) (at2 nx ny ng (u 0) (u 1)) (f.e 0 (at2 nx ny ng (u 0) (u 1)) + (dt * P.c2) * put (ψ 0) (at2 nx ny ng (u 0) (u 1)) ((ex (-(sigma (u 1) / kappa (u 1) + a (u 1)) * dt)) * ψ 0 (at2 nx ny ng (u 0) (u 1)) + ccoeff (ex (-(sigma (u 1) / kappa (u 1) + a (u 1)) * dt)) (kappa (u 1)) (sigma (u 1)) (a (u 1)) (P.d 1) * (f.b 2 (at2 nx ny ng (u 0) (u 1)) - f.b 2 (at2 nx ny ng (u 0) ((u 1 : Int) - 1)))) (at2 nx ny ng (u 0) (u 1))) := rfl
    have hD : diffB (cellsOf ![nx, ny] ng f.b) (1 : Fin 2) 0 (fun a => (u a : Int)) = (f.b 2 (at2 nx ny ng (u 0) (u 1)) - f.b 2 (at2 nx ny ng (u 0) ((u 1 : Int) - 1))) := by
      rw [at2_own, at2_dn1]; rfl
    have hs : curlSign 0 (comp (1 : Fin 2)) = 1 := rfl
    rw [h1, h2, put_same, hD, hs, at2_own]
    refine ⟨rfl, ?_⟩
    congr 1
    ring
  | 1 => exact absurd rfl hd
  | 2 =>
    have h1 : (psiYE2 nx ny ng P dt ex kappa sigma a (f, ψ) u).2 2 = put (ψ 2) (at2 nx ny ng (u 0) (u 1)) ((ex (-(sigma (u 1) / kappa (u 1) + a (u 1)) * dt)) * ψ 2 (at2 nx ny ng (u 0) (u 1)) + ccoeff (ex (-(sigma (u 1) / kappa (u 1) + a (u 1)) * dt)) (kappa (u 1)) (sigma (u 1)) (a (u 1)) (P.d 1) * (f.b 0 (at2 nx ny ng (u 0) (u 1)) - f.b 0 (at2 nx ny ng (u 0) ((u 1 : Int) - 1)))) := rfl
    have h2 : (psiYE2 nx ny ng P dt ex kappa sigma a (f, ψ) u).1.e 2 = put (f.e 2) (at2 nx ny ng (u 0) (u 1)) (f.e 2 (at2 nx ny ng (u 0) (u 1)) - (dt * P.c2) * put (ψ 2) (at2 nx ny ng (u 0) (u 1)) ((ex (-(sigma (u 1) / kappa (u 1) + a (u 1)) * dt)) * ψ 2 (at2 nx ny ng (u 0) (u 1)) + ccoeff (ex (-(sigma (u 1) / kappa (u 1) + a (u 1)) * dt)) (kappa (u 1)) (sigma (u 1)) (a (u 1)) (P.d 1) * (f.b 0 (at2 nx ny ng (u 0) (u 1)) - f.b 0 (at2 nx ny ng (u 0) ((u 1 : Int) - 1)))) (at2 nx ny ng (u 0) (u 1))) := rfl
    have hD : diffB (cellsOf ![nx, ny] ng f.b) (1 : Fin 2) 2 (fun a => (u a : Int)) = (f.b 0 (at2 nx ny ng (u 0) (u 1)) - f.b 0 (at2 nx ny ng (u 0) ((u 1 : Int) - 1))) := by
      rw [at2_own, at2_dn1]; rfl
    have hs : curlSign 2 (comp (1 : Fin 2)) = -1 := rfl
    rw [h1, h2, put_same, hD, hs, at2_own]
    refine ⟨rfl, ?_⟩
    congr 1
    ring

theorem psiYB2_form (nx ny ng : Nat) (P : Par 2) (dt : ℚ) (ex : ℚ → ℚ) (kappa sigma a : Nat → ℚ) (f : Fields 2) (ψ : Fin 3 → Arr 2) (u : Fin 2 → Nat) :
    let r := psiYB2 nx ny ng P dt ex kappa sigma a (f, ψ) u
    r.1.e = f.e ∧ r.1.j = f.j ∧ r.2 (comp (1 : Fin 2)) = ψ (comp (1 : Fin 2)) ∧
    r.1.b (comp (1 : Fin 2)) = f.b (comp (1 : Fin 2)) ∧
    ∀ d, d ≠ comp (1 : Fin 2) →
      r.2 d = put (ψ d) (index ![nx, ny] ng fun a => u a) ((ex (-(sigma (u 1) / kappa (u 1) + a (u 1)) * dt)) * ψ d (index ![nx, ny] ng fun a => u a) + ccoeff (ex (-(sigma (u 1) / kappa (u 1) + a (u 1)) * dt)) (kappa (u 1)) (sigma (u 1)) (a (u 1)) (P.d 1) * diffE (cellsOf ![nx, ny] ng f.e) (1 : Fin 2) d fun a => u a) ∧
      r.1.b d = put (f.b d) (index ![nx, ny] ng fun a => u a) (f.b d (index ![nx, ny] ng fun a => u a) + -(curlSign d (comp (1 : Fin 2)) * dt) * ((ex (-(sigma (u 1) / kappa (u 1) + a (u 1)) * dt)) * ψ d (index ![nx, ny] ng fun a => u a) + ccoeff (ex (-(sigma (u 1) / kappa (u 1) + a (u 1)) * dt)) (kappa (u 1)) (sigma (u 1)) (a (u 1)) (P.d 1) * diffE (cellsOf ![nx, ny] ng f.e) (1 : Fin 2) d fun a => u a)) := by
  refine ⟨rfl, rfl, rfl, rfl, ?_⟩
  intro d hd
  match d with
  | 0 =>
    have h1 : (psiYB2 nx ny ng P dt ex kappa sigma a (f, ψ) u).2 0 = put (ψ 0) (at2 nx ny ng (u 0) (u 1)) ((ex (-(sigma (u 1) / kappa (u 1) + a (u 1)) * dt)) * ψ 0 (at2 nx ny ng (u 0) (u 1)) + ccoeff (ex (-(sigma (u 1) / kappa (u 1) + a (u 1)) * dt)) (kappa (u 1)) (sigma (u 1)) (a (u 1)) (P.d 1) * (f.e 2 (at2 nx ny ng (u 0) ((u 1 : Int) + 1)) - f.e 2 (at2 nx ny ng (u 0) (u 1)))) := rfl
    have h2 : (psiYB2 nx ny ng P dt ex kappa sigma a (f, ψ) u).1.b 0 = put (f.b 0) (at2 nx ny ng (u 0) (u 1)) (f.b 0 (at2 nx ny ng (u 0) (u 1)) - dt * put (ψ 0) (at2 nx ny ng (u 0) (u 1)) ((ex (-(sigma (u 1) / kappa (u 1) + a (u 1)) * dt)) * ψ 0 (at2 nx ny ng (u 0) (u 1)) + ccoeff (ex (-(sigma (u 1) / kappa (u 1) + a (u 1)) * dt)) (kappa (u 1)) (sigma (u 1)) (a (u 1)) (P.d 1) * (f.e 2 (at2 nx ny ng (u 0) ((u 1 : Int) + 1)) - f.e 2 (at2 nx ny ng (u 0) (u 1)))) (at2 nx ny ng (u 0) (u 1))) := rfl
    have hD : diffE (cellsOf ![nx, ny] ng f.e) (1 : Fin 2) 0 (fun a => (u a : Int)) = (f.e 2 (at2 nx ny ng (u 0) ((u 1 : Int) + 1)) - f.e 2 (at2 nx ny ng (u 0) (u 1))) := by
      rw [at2_own, at2_up1]; rfl
    have hs : curlSign 0 (comp (1 : Fin 2)) = 1 := rfl
    rw [h1, h2, put_same, hD, hs, at2_own]
    refine ⟨rfl, ?_⟩
    congr 1
    ring
  | 1 => exact absurd rfl hd
  | 2 =>
    have h1 : (psiYB2 nx ny ng P dt ex kappa sigma a (f, ψ) u).2 2 = put (ψ 2) (at2 nx ny ng (u 0) (u 1)) ((ex (-(sigma (u 1) / kappa (u 1) + a (u 1)) * dt)) * ψ 2 (at2 nx ny ng (u 0) (u 1)) + ccoeff (ex (-(sigma (u 1) / kappa (u 1) + a (u 1)) * dt)) (kappa (u 1)) (sigma (u 1)) (a (u 1)) (P.d 1) * (f.e 0 (at2 nx ny ng (u 0) ((u 1 : Int) + 1)) - f.e 0 (at2 nx ny ng (u 0) (u 1)))) := rfl
    have h2 : (psiYB2 nx ny ng P dt ex kappa sigma a (f, ψ) u).1.b 2 = put (f.b 2) (at2 nx ny ng (u 0) (u 1)) (f.b 2 (at2 nx ny ng (u 0) (u 1)) + dt * put (ψ 2) (at2 nx ny ng (u 0) (u 1)) ((ex (-(sigma (u 1) / kappa (u 1) + a (u 1)) * dt)) * ψ 2 (at2 nx ny ng (u 0) (u 1)) + ccoeff (ex (-(sigma (u 1) / kappa (u 1) + a (u 1)) * dt)) (kappa (u 1)) (sigma (u 1)) (a (u 1)) (P.d 1) * (f.e 0 (at2 nx ny ng (u 0) ((u 1 : Int) + 1)) - f.e 0 (at2 nx ny ng (u 0) (u 1)))) (at2 nx ny ng (u 0) (u 1))) := rfl
    have hD : diffE (cellsOf ![nx, ny] ng f.e) (1 : Fin 2) 2 (fun a => (u a : Int)) = (f.e 0 (at2 nx ny ng (u 0) ((u 1 : Int) + 1)) - f.e 0 (at2 nx ny ng (u 0) (u 1))) := by
      rw [at2_own, at2_up1]; rfl
    have hs : curlSign 2 (comp (1 : Fin 2)) = -1 := rfl
    rw [h1, h2, put_same, hD, hs, at2_own]
    refine ⟨rfl, ?_⟩
    congr 1
    ring

theorem psiXE3_form (nx ny nz ng : Nat) (P : Par 3) (dt : ℚ) (ex : ℚ → ℚ) (kappa sigma a : Nat → ℚ) (f : Fields 3) (ψ : Fin 3 → Arr 3) (u : Fin 3 → Nat) :
    let r := psiXE3 nx ny nz ng P dt ex kappa sigma a (f, ψ) u
    r.1.b = f.b ∧ r.1.j = f.j ∧ r.2 (comp (0 : Fin 3)) = ψ (comp (0 : Fin 3)) ∧
    r.1.e (comp (0 : Fin 3)) = f.e (comp (0 : Fin 3)) ∧
    ∀ d, d ≠ comp (0 : Fin 3) →
      r.2 d = put (ψ d) (index ![nx, ny, nz] ng fun a => u a) ((ex (-(sigma (u 0) / kappa (u 0) + a (u 0)) * dt)) * ψ d (index ![nx, ny, nz] ng fun a => u a) + ccoeff (ex (-(sigma (u 0) / kappa (u 0) + a (u 0)) * dt)) (kappa (u 0)) (sigma (u 0)) (a (u 0)) (P.d 0) * diffB (cellsOf ![nx, ny, nz] ng f.b) (0 : Fin 3) d fun a => u a) ∧
      r.1.e d = put (f.e d) (index ![nx, ny, nz] ng fun a => u a) (f.e d (index ![nx, ny, nz] ng fun a => u a) + curlSign d (comp (0 : Fin 3)) * (dt * P.c2) * ((ex (-(sigma (u 0) / kappa (u 0) + a (u 0)) * dt)) * ψ d (index ![nx, ny, nz] ng fun a => u a) + ccoeff (ex (-(sigma (u 0) / kappa (u 0) + a (u 0)) * dt)) (kappa (u 0)) (sigma (u 0)) (a (u 0)) (P.d 0) * diffB (cellsOf ![nx, ny, nz] ng f.b) (0 : Fin 3) d fun a => u a)) := by
  refine ⟨rfl, rfl, rfl, rfl, ?_⟩
  intro d hd
  match d with
  | 0 => exact absurd rfl hd
  | 1 =>
    have h1 : (psiXE3 nx ny nz ng P dt ex kappa sigma a (f, ψ) u).2 1 = put (ψ 1) (at3 nx ny nz ng (u 0) (u 1) (u 2)) ((ex (-(sigma (u 0) / kappa (u 0) + a (u 0)) * dt)) * ψ 1 (at3 nx ny nz ng (u 0) (u 1) (u 2)) + ccoeff (ex (-(sigma (u 0) / kappa (u 0) + a (u 0)) * dt)) (kappa (u 0)) (sigma (u 0)) (a (u 0)) (P.d 0) * (f.b 2 (at3 nx ny nz ng (u 0) (u 1) (u 2)) - f.b 2 (at3 nx ny nz ng ((u 0 : Int) - 1) (u 1) (u 2)))) := rfl
    have h2 : (psiXE3 nx ny nz ng P dt ex kappa sigma a (f, ψ) u).1.e 1 = put (f.e 1) (at3 nx ny nz ng (u 0) (u 1) (u 2)) (f.e 1 (at3 nx ny nz ng (u 0) (u 1) (u 2)) - (dt * P.c2) * put (ψ 1) (at3 nx ny nz ng (u 0) (u 1) (u 2)) ((ex (-(sigma (u 0) / kappa (u 0) + a (u 0)) * dt)) * ψ 1 (at3 nx ny nz ng (u 0) (u 1) (u 2)) + ccoeff (ex (-(sigma (u 0) / kappa (u 0) + a (u 0)) * dt)) (kappa (u 0)) (sigma (u 0)) (a (u 0)) (P.d 0) * (f.b 2 (at3 nx ny nz ng (u 0) (u 1) (u 2)) - f.b 2 (at3 nx ny nz ng ((u 0 : Int) - 1) (u 1) (u 2)))) (at3 nx ny nz ng (u 0) (u 1) (u 2))) := rfl
    have hD : diffB (cellsOf ![nx, ny, nz] ng f.b) (0 : Fin 3) 1 (fun a => (u a : Int)) = (f.b 2 (at3 nx ny nz ng (u 0) (u 1) (u 2)) - f.b 2 (at3 nx ny nz ng ((u 0 : Int) - 1) (u 1) (u 2))) := by
      rw [at3_own, at3_dn0]; rfl
    have hs : curlSign 1 (comp (0 : Fin 3)) = -1 := rfl
    rw [h1, h2, put_same, hD, hs, at3_own]
    refine ⟨rfl, ?_⟩
    congr 1
    ring
  | 2 =>
    have h1 : (psiXE3 nx ny nz ng P dt ex kappa sigma a (f, ψ) u).2 2 = put (ψ 2) (at3 nx ny nz ng (u 0) (u 1) (u 2)) ((ex (-(sigma (u 0) / kappa (u 0) + a (u 0)) * dt)) * ψ 2 (at3 nx ny nz ng (u 0) (u 1) (u 2)) + ccoeff (ex (-(sigma (u 0) / kappa (u 0) + a (u 0)) * dt)) (kappa (u 0)) (sigma (u 0)) (a (u 0)) (P.d 0) * (f.b 1 (at3 nx ny nz ng (u 0) (u 1) (u 2)) - f.b 1 (at3 nx ny nz ng ((u 0 : Int) - 1) (u 1) (u 2)))) := rfl
    have h2 : (psiXE3 nx ny nz ng P dt ex kappa sigma a (f, ψ) u).1.e 2 = put (f.e 2) (at3 nx ny nz ng (u 0) (u 1) (u 2)) (f.e 2 (at3 nx ny nz ng (u 0) (u 1) (u 2)) + (dt * P.c2) * put (ψ 2) (at3 nx ny nz ng (u 0) (u 1) (u 2)) ((ex (-(sigma (u 0) / kappa (u 0) + a (u 0)) * dt)) * ψ 2 (at3 nx ny nz ng (u 0) (u 1) (u 2)) + ccoeff (ex (-(sigma (u 0) / kappa (u 0) + a (u 0)) * dt)) (kappa (u 0)) (sigma (u 0)) (a (u 0)) (P.d 0) * (f.b 1 (at3 nx ny nz ng (u 0) (u 1) (u 2)) - f.b 1 (at3 nx ny nz ng ((u 0 : Int) - 1) (u 1) (u 2)))) (at3 nx ny nz ng (u 0) (u 1) (u 2))) := rfl
    have hD : diffB (cellsOf ![nx, ny, nz] ng f.b) (0 : Fin 3) 2 (fun a => (u a : Int)) = (f.b 1 (at3 nx ny nz ng (u 0) (u 1) (u 2)) - f.b 1 (at3 nx ny nz ng ((u 0 : Int) - 1) (u 1) (u 2))) := by
      rw [at3_own, at3_dn0]; rfl
    have hs : curlSign 2 (comp (0 : Fin 3)) = 1 := rfl
    rw [h1, h2, put_same, hD, hs, at3_own]
    refine ⟨rfl, ?_⟩
    congr 1
    ring

theorem psiXB3_form (nx ny nz ng : Nat) (P : Par 3) (dt : ℚ) (ex : ℚ → ℚ) (kappa sigma a : Nat → ℚ) (f : Fields 3) (ψ : Fin 3 → Arr 3) (u : Fin 3 → Nat) :
    let r := psiXB3 nx ny nz ng P dt ex kappa sigma a (f, ψ) u
    r.1.e = f.e ∧ r.1.j = f.j ∧ r.2 (comp (0 : Fin 3)) = ψ (comp (0 : Fin 3)) ∧
    r.1.b (comp (0 : Fin 3)) = f.b (comp (0 : Fin 3)) ∧
    ∀ d, d ≠ comp (0 : Fin 3) →
      r.2 d = put (ψ d) (index ![nx, ny, nz] ng fun a => u a) ((ex (-(sigma (u 0) / kappa (u 0) + a (u 0)) * dt)) * ψ d (index ![nx, ny, nz] ng fun a => u a) + ccoeff (ex (-(sigma (u 0) / kappa (u 0) + a (u 0)) * dt)) (kappa (u 0)) (sigma (u 0)) (a (u 0)) (P.d 0) * diffE (cellsOf ![nx, ny, nz] ng f.e) (0 : Fin 3) d fun a => u a) ∧
      r.1.b d = put (f.b d) (index ![nx, ny, nz] ng fun a => u a) (f.b d (index ![nx, ny, nz] ng fun a => u a) + -(curlSign d (comp (0 : Fin 3)) * dt) * ((ex (-(sigma (u 0) / kappa (u 0) + a (u 0)) * dt)) * ψ d (index ![nx, ny, nz] ng fun a => u a) + ccoeff (ex (-(sigma (u 0) / kappa (u 0) + a (u 0)) * dt)) (kappa (u 0)) (sigma (u 0)) (a (u 0)) (P.d 0) * diffE (cellsOf ![nx, ny, nz] ng f.e) (0 : Fin 3) d fun a => u a)) := by
  refine ⟨rfl, rfl, rfl, rfl, ?_⟩
  intro d hd
  match d with
  | 0 => exact absurd rfl hd
  | 1 =>
    have h1 : (psiXB3 nx ny nz ng P dt ex kappa sigma a (f, ψ) u).2 1 = put (ψ 1) (at3 nx ny nz ng (u 0) (u 1) (u 2)) ((ex (-(sigma (u 0) / kappa (u 0) + a (u 0)) * dt)) * ψ 1 (at3 nx ny nz ng (u 0) (u 1) (u 2)) + ccoeff (ex (-(sigma (u 0) / kappa (u 0) + a (u 0)) * dt)) (kappa (u 0)) (sigma (u 0)) (a (u 0)) (P.d 0) * (f.e 2 (at3 nx ny nz ng ((u 0 : Int) + 1) (u 1) (u 2)) - f.e 2 (at3 nx ny nz ng (u 0) (u 1) (u 2)))) := rfl
    have h2 : (psiXB3 nx ny nz ng P dt ex kappa sigma a (f, ψ) u).1.b 1 = put (f.b 1) (at3 nx ny nz ng (u 0) (u 1) (u 2)) (f.b 1 (at3 nx ny nz ng (u 0) (u 1) (u 2)) + dt * put (ψ 1) (at3 nx ny nz ng (u 0) (u 1) (u 2)) ((ex (-(sigma (u 0) / kappa (u 0) + a (u 0)) * dt)) * ψ 1 (at3 nx ny nz ng (u 0) (u 1) (u 2)) + ccoeff (ex (-(sigma (u 0) / kappa (u 0) + a (u 0)) * dt)) (kappa (u 0)) (sigma (u 0)) (a (u 0)) (P.d 0) * (f.e 2 (at3 nx ny nz ng ((u 0 : Int) + 1) (u 1) (u 2)) - f.e 2 (at3 nx ny nz ng (u 0) (u 1) (u 2)))) (at3 nx ny nz ng (u 0) (u 1) (u 2))) := rfl
    have hD : diffE (cellsOf ![nx, ny, nz] ng f.e) (0 : Fin 3) 1 (fun a => (u a : Int)) = (f.e 2 (at3 nx ny nz ng ((u 0 : Int) + 1) (u 1) (u 2)) - f.e 2 (at3 nx ny nz ng (u 0) (u 1) (u 2))) := by
      rw [at3_own, at3_up0]; rfl
    have hs : curlSign 1 (comp (0 : Fin 3)) = -1 := rfl
    rw [h1, h2, put_same, hD, hs, at3_own]
    refine ⟨rfl, ?_⟩
    congr 1
    ring
  | 2 =>
    have h1 : (psiXB3 nx ny nz ng P dt ex kappa sigma a (f, ψ) u).2 2 = put (ψ 2) (at3 nx ny nz ng (u 0) (u 1) (u 2)) ((ex (-(sigma (u 0) / kappa (u 0) + a (u 0)) * dt)) * ψ 2 (at3 nx ny nz ng (u 0) (u 1) (u 2)) + ccoeff (ex (-(sigma (u 0) / kappa (u 0) + a (u 0)) * dt)) (kappa (u 0)) (sigma (u 0)) (a (u 0)) (P.d 0) * (f.e 1 (at3 nx ny nz ng ((u 0 : Int) + 1) (u 1) (u 2)) - f.e 1 (at3 nx ny nz ng (u 0) (u 1) (u 2)))) := rfl
    have h2 : (psiXB3 nx ny nz ng P dt ex kappa sigma a (f, ψ) u).1.b 2 = put (f.b 2) (at3 nx ny nz ng (u 0) (u 1) (u 2)) (f.b 2 (at3 nx ny nz ng (u 0) (u 1) (u 2)) - dt * put (ψ 2) (at3 nx ny nz ng (u 0) (u 1) (u 2)) ((ex (-(sigma (u 0) / kappa (u 0) + a (u 0)) * dt)) * ψ 2 (at3 nx ny nz ng (u 0) (u 1) (u 2)) + ccoeff (ex (-(sigma (u 0) / kappa (u 0) + a (u 0)) * dt)) (kappa (u 0)) (sigma (u 0)) (a (u 0)) (P.d 0) * (f.e 1 (at3 nx ny nz ng ((u 0 : Int) + 1) (u 1) (u 2)) - f.e 1 (at3 nx ny nz ng (u 0) (u 1) (u 2)))) (at3 nx ny nz ng (u 0) (u 1) (u 2))) := rfl
    have hD : diffE (cellsOf ![nx, ny, nz] ng f.e) (0 : Fin 3) 2 (fun a => (u a : Int)) = (f.e 1 (at3 nx ny nz ng ((u 0 : Int) + 1) (u 1) (u 2)) - f.e 1 (at3 nx ny nz ng (u 0) (u 1) (u 2))) := by
      rw [at3_own, at3_up0]; rfl
    have hs : curlSign 2 (comp (0 : Fin 3)) = 1 := rfl
    rw [h1, h2, put_same, hD, hs, at3_own]
    refine ⟨rfl, ?_⟩
    congr 1
    ring

theorem psiYE3_form (nx ny nz ng : Nat) (P : Par 3) (dt : ℚ) (ex : ℚ → ℚ) (kappa sigma a : Nat → ℚ) (f : Fields 3) (ψ : Fin 3 → Arr 3) (u : Fin 3 → Nat) :
    let r := psiYE3 nx ny nz ng P dt ex kappa sigma a (f, ψ) u
    r.1.b = f.b ∧ r.1.j = f.j ∧ r.2 (comp (1 : Fin 3)) = ψ (comp (1 : Fin 3)) ∧
    r.1.e (comp (1 : Fin 3)) = f.e (comp (1 : Fin 3)) ∧
    ∀ d, d ≠ comp (1 : Fin 3) →
      r.2 d = put (ψ d) (index ![nx, ny, nz] ng fun a => u a) ((ex (-(sigma (u 1) / kappa (u 1) + a (u 1)) * dt)) * ψ d (index ![nx, ny, nz] ng fun a => u a) + ccoeff (ex (-(sigma (u 1) / kappa (u 1) + a (u 1)) * dt)) (kappa (u 1)) (sigma (u 1)) (a (u 1)) (P.d 1) * diffB (cellsOf ![nx, ny, nz] ng f.b) (1 : Fin 3) d fun a => u a) ∧
      r.1.e d = put (f.e d) (index ![nx, ny, nz] ng fun a => u a) (f.e d (index ![nx, ny, nz] ng fun a => u a) + curlSign d (comp (1 : Fin 3)) * (dt * P.c2) * ((ex (-(sigma (u 1) / kappa (u 1) + a (u 1)) * dt)) * ψ d (index ![nx, ny, nz] ng fun a => u a) + ccoeff (ex (-(sigma (u 1) / kappa (u 1) + a (u 1)) * dt)) (kappa (u 1)) (sigma (u 1)) (a (u 1)) (P.d 1) * diffB (cellsOf ![nx, ny, nz] ng f.b) (1 : Fin 3) d fun a => u a)) := by
  refine ⟨rfl, rfl, rfl, rfl, ?_⟩
  intro d hd
  match d with
  | 0 =>
    have h1 : (psiYE3 nx ny nz ng P dt ex kappa sigma a (f, ψ) u).2 0 = put (ψ 0) (at3 nx ny nz ng (u 0) (u 1) (u 2)) ((ex (-(sigma (u 1) / kappa (u 1) + a (u 1)) * dt)) * ψ 0 (at3 nx ny nz ng (u 0) (u 1) (u 2)) + ccoeff (ex (-(sigma (u 1) / kappa (u 1) + a (u 1)) * dt)) (kappa (u 1)) (sigma (u 1)) (a (u 1)) (P.d 1) * (f.b 2 (at3 nx ny nz ng (u 0) (u 1) (u 2)) - f.b 2 (at3 nx ny nz ng (u 0) ((u 1 : Int) - 1) (u 2)))) := rfl
    have h2 : (psiYE3 nx ny nz ng P dt ex kappa sigma a (f, ψ) u).1.e 0 = put (f.e 0) (at3 nx ny nz ng (u 0) (u 1) (u 2)) (f.e 0 (at3 nx ny nz ng (u 0) (u 1) (u 2)) + (dt * P.c2) * put (ψ 0) (at3 nx ny nz ng (u 0) (u 1) (u 2)) ((ex (-(sigma (u 1) / kappa (u 1) + a (u 1)) * dt)) * ψ 0 (at3 nx ny nz ng (u 0) (u 1) (u 2)) + ccoeff (ex (-(sigma (u 1) / kappa (u 1) + a (u 1)) * dt)) (kappa (u 1)) (sigma (u 1)) (a (u 1)) (P.d 1) * (f.b 2 (at3 nx ny nz ng (u 0) (u 1) (u 2)) - f.b 2 (at3 nx ny nz ng (u 0) ((u 1 : Int) - 1) (u 2)))) (at3 nx ny nz ng (u 0) (u 1) (u 2))) := rfl
    have hD : diffB (cellsOf ![nx, ny, nz] ng f.b) (1 : Fin 3) 0 (fun a => (u a : Int)) = (f.b 2 (at3 nx ny nz ng (u 0) (u 1) (u 2)) - f.b 2 (at3 nx ny nz ng (u 0) ((u 1 : Int) - 1) (u 2))) := by
      rw [at3_own, at3_dn1]; rfl
    have hs : curlSign 0 (comp (1 : Fin 3)) = 1 := rfl
    rw [h1, h2, put_same, hD, hs, at3_own]
    refine ⟨rfl, ?_⟩
    congr 1
    ring
  | 1 => exact absurd rfl hd
  | 2 =>
    have h1 : (psiYE3 nx ny nz ng P dt ex kappa sigma a (f, ψ) u).2 2 = put (ψ 2) (at3 nx ny nz ng (u 0) (u 1) (u 2)) ((ex (-(sigma (u 1) / kappa (u 1) + a (u 1)) * dt)) * ψ 2 (at3 nx ny nz ng (u 0) (u 1) (u 2)) + ccoeff (ex (-(sigma (u 1) / kappa (u 1) + a (u 1)) * dt)) (kappa (u 1)) (sigma (u 1)) (a (u 1)) (P.d 1) * (f.b 0 (at3 nx ny nz ng (u 0) (u 1) (u 2)) - f.b 0 (at3 nx ny nz ng (u 0) ((u 1 : Int) - 1) (u 2)))) := rfl
    have h2 : (psiYE3 nx ny nz ng P dt ex kappa sigma a (f, ψ) u).1.e 2 = put (f.e 2) (at3 nx ny nz ng (u 0) (u 1) (u 2)) (f.e 2 (at3 nx ny nz ng (u 0) (u 1) (u 2)) - (dt * P.c2) * put (ψ 2) (at3 nx ny nz ng (u 0) (u 1) (u 2)) ((ex (-(sigma (u 1) / kappa (u 1) + a (u 1)) * dt)) * ψ 2 (at3 nx ny nz ng (u 0) (u 1) (u 2)) + ccoeff (ex (-(sigma (u 1) / kappa (u 1) + a (u 1)) * dt)) (kappa (u 1)) (sigma (u 1)) (a (u 1)) (P.d 1) * (f.b 0 (at3 nx ny nz ng (u 0) (u 1) (u 2)) - f.b 0 (at3 nx ny nz ng (u 0) ((u 1 : Int) - 1) (u 2)))) (at3 nx ny nz ng (u 0) (u 1) (u 2))) := rfl
    have hD : diffB (cellsOf ![nx, ny, nz] ng f.b) (1 : Fin 3) 2 (fun a => (u a : Int)) = (f.b 0 (at3 nx ny nz ng (u 0) (u 1) (u 2)) - f.b 0 (at3 nx ny nz ng (u 0) ((u 1 : Int) - 1) (u 2))) := by
      rw [at3_own, at3_dn1]; rfl
    have hs : curlSign 2 (comp (1 : Fin 3)) = -1 := rfl
    rw [h1, h2, put_same, hD, hs, at3_own]
    refine ⟨rfl, ?_⟩
    congr 1
    ring

theorem psiYB3_form (nx ny nz ng : Nat) (P : Par 3) (dt : ℚ) (ex : ℚ → ℚ) (kappa sigma a : Nat → ℚ) (f : Fields 3) (ψ : Fin 3 → Arr 3) (u : Fin 3 → Nat) :
    let r := psiYB3 nx ny nz ng P dt ex kappa sigma a (f, ψ) u
    r.1.e = f.e ∧ r.1.j = f.j ∧ r.2 (comp (1 : Fin 3)) = ψ (comp (1 : Fin 3)) ∧
    r.1.b (comp (1 : Fin 3)) = f.b (comp (1 : Fin 3)) ∧
    ∀ d, d ≠ comp (1 : Fin 3) →
      r.2 d = put (ψ d) (index ![nx, ny, nz] ng fun a => u a) ((ex (-(sigma (u 1) / kappa (u 1) + a (u 1)) * dt)) * ψ d (index ![nx, ny, nz] ng fun a => u a) + ccoeff (ex (-(sigma (u 1) / kappa (u 1) + a (u 1)) * dt)) (kappa (u 1)) (sigma (u 1)) (a (u 1)) (P.d 1) * diffE (cellsOf ![nx, ny, nz] ng f.e) (1 : Fin 3) d fun a => u a) ∧
      r.1.b d = put (f.b d) (index ![nx, ny, nz] ng fun a => u a) (f.b d (index ![nx, ny, nz] ng fun a => u a) + -(curlSign d (comp (1 : Fin 3)) * dt) * ((ex (-(sigma (u 1) / kappa (u 1) + a (u 1)) * dt)) * ψ d (index ![nx, ny, nz] ng fun a => u a) + ccoeff (ex (-(sigma (u 1) / kappa (u 1) + a (u 1)) * dt)) (kappa (u 1)) (sigma (u 1)) (a (u 1)) (P.d 1) * diffE (cellsOf ![nx, ny, nz] ng f.e) (1 : Fin 3) d fun a => u a)) := by
  refine ⟨rfl, rfl, rfl, rfl, ?_⟩
  intro d hd
  match d with
  | 0 =>
    have h1 : (psiYB3 nx ny nz ng P dt ex kappa sigma a (f, ψ) u).2 0 = put (ψ 0) (at3 nx ny nz ng (u 0) (u 1) (u 2)) ((ex (-(sigma (u 1) / kappa (u 1) + a (u 1)) * dt)) * ψ 0 (at3 nx ny nz ng (u 0) (u 1) (u 2)) + ccoeff (ex (-(sigma (u 1) / kappa (u 1) + a (u 1)) * dt)) (kappa (u 1)) (sigma (u 1)) (a (u 1)) (P.d 1) * (f.e 2 (at3 nx ny nz ng (u 0) ((u 1 : Int) + 1) (u 2)) - f.e 2 (at3 nx ny nz ng (u 0) (u 1) (u 2)))) := rfl
    have h2 : (psiYB3 nx ny nz ng P dt ex kappa sigma a (f, ψ) u).1.b 0 = put (f.b 0) (at3 nx ny nz ng (u 0) (u 1) (u 2)) (f.b 0 (at3 nx ny nz ng (u 0) (u 1) (u 2)) - dt * put (ψ 0) (at3 nx ny nz ng (u 0) (u 1) (u 2)) ((ex (-(sigma (u 1) / kappa (u 1) + a (u 1)) * dt)) * ψ 0 (at3 nx ny nz ng (u 0) (u 1) (u 2)) + ccoeff (ex (-(sigma (u 1) / kappa (u 1) + a (u 1)) * dt)) (kappa (u 1)) (sigma (u 1)) (a (u 1)) (P.d 1) * (f.e 2 (at3 nx ny nz ng (u 0) ((u 1 : Int) + 1) (u 2)) - f.e 2 (at3 nx ny nz ng (u 0) (u 1) (u 2)))) (at3 nx ny nz ng (u 0) (u 1) (u 2))) := rfl
    have hD : diffE (cellsOf ![nx, ny, nz] ng f.e) (1 : Fin 3) 0 (fun a => (u a : Int)) = (f.e 2 (at3 nx ny nz ng (u 0) ((u 1 : Int) + 1) (u 2)) - f.e 2 (at3 nx ny nz ng (u 0) (u 1) (u 2))) := by
      rw [at3_own, at3_up1]; rfl
    have hs : curlSign 0 (comp (1 : Fin 3)) = 1 := rfl
    rw [h1, h2, put_same, hD, hs, at3_own]
    refine ⟨rfl, ?_⟩
    congr 1
    ring
  | 1 => exact absurd rfl hd
  | 2 =>
    have h1 : (psiYB3 nx ny nz ng P dt ex kappa sigma a (f, ψ) u).2 2 = put (ψ 2) (at3 nx ny nz ng (u 0) (u 1) (u 2)) ((ex (-(sigma (u 1) / kappa (u 1) + a (u 1)) * dt)) * ψ 2 (at3 nx ny nz ng (u 0) (u 1) (u 2)) + ccoeff (ex (-(sigma (u 1) / kappa (u 1) + a (u 1)) * dt)) (kappa (u 1)) (sigma (u 1)) (a (u 1)) (P.d 1) * (f.e 0 (at3 nx ny nz ng (u 0) ((u 1 : Int) + 1) (u 2)) - f.e 0 (at3 nx ny nz ng (u 0) (u 1) (u 2)))) := rfl
    have h2 : (psiYB3 nx ny nz ng P dt ex kappa sigma a (f, ψ) u).1.b 2 = put (f.b 2) (at3 nx ny nz ng (u 0) (u 1) (u 2)) (f.b 2 (at3 nx ny nz ng (u 0) (u 1) (u 2)) + dt * put (ψ 2) (at3 nx ny nz ng (u 0) (u 1) (u 2)) ((ex (-(sigma (u 1) / kappa (u 1) + a (u 1)) * dt)) * ψ 2 (at3 nx ny nz ng (u 0) (u 1) (u 2)) + ccoeff (ex (-(sigma (u 1) / kappa (u 1) + a (u 1)) * dt)) (kappa (u 1)) (sigma (u 1)) (a (u 1)) (P.d 1) * (f.e 0 (at3 nx ny nz ng (u 0) ((u 1 : Int) + 1) (u 2)) - f.e 0 (at3 nx ny nz ng (u 0) (u 1) (u 2)))) (at3 nx ny nz ng (u 0) (u 1) (u 2))) := rfl
    have hD : diffE (cellsOf ![nx, ny, nz] ng f.e) (1 : Fin 3) 2 (fun a => (u a : Int)) = (f.e 0 (at3 nx ny nz ng (u 0) ((u 1 : Int) + 1) (u 2)) - f.e 0 (at3 nx ny nz ng (u 0) (u 1) (u 2))) := by
      rw [at3_own, at3_up1]; rfl
    have hs : curlSign 2 (comp (1 : Fin 3)) = -1 := rfl
    rw [h1, h2, put_same, hD, hs, at3_own]
    refine ⟨rfl, ?_⟩
    congr 1
    ring

theorem psiZE3_form (nx ny nz ng : Nat) (P : Par 3) (dt : ℚ) (ex : ℚ → ℚ) (kappa sigma a : Nat → ℚ) (f : Fields 3) (ψ : Fin 3 → Arr 3) (u : Fin 3 → Nat) :
    let r := psiZE3 nx ny nz ng P dt ex kappa sigma a (f, ψ) u
    r.1.b = f.b ∧ r.1.j = f.j ∧ r.2 (comp (2 : Fin 3)) = ψ (comp (2 : Fin 3)) ∧
    r.1.e (comp (2 : Fin 3)) = f.e (comp (2 : Fin 3)) ∧
    ∀ d, d ≠ comp (2 : Fin 3) →
      r.2 d = put (ψ d) (index ![nx, ny, nz] ng fun a => u a) ((ex (-(sigma (u 2) / kappa (u 2) + a (u 2)) * dt)) * ψ d (index ![nx, ny, nz] ng fun a => u a) + ccoeff (ex (-(sigma (u 2) / kappa (u 2) + a (u 2)) * dt)) (kappa (u 2)) (sigma (u 2)) (a (u 2)) (P.d 2) * diffB (cellsOf ![nx, ny, nz] ng f.b) (2 : Fin 3) d fun a => u a) ∧
      r.1.e d = put (f.e d) (index ![nx, ny, nz] ng fun a => u a) (f.e d (index ![nx, ny, nz] ng fun a => u a) + curlSign d (comp (2 : Fin 3)) * (dt * P.c2) * ((ex (-(sigma (u 2) / kappa (u 2) + a (u 2)) * dt)) * ψ d (index ![nx, ny, nz] ng fun a => u a) + ccoeff (ex (-(sigma (u 2) / kappa (u 2) + a (u 2)) * dt)) (kappa (u 2)) (sigma (u 2)) (a (u 2)) (P.d 2) * diffB (cellsOf ![nx, ny, nz] ng f.b) (2 : Fin 3) d fun a => u a)) := by
  refine ⟨rfl, rfl, rfl, rfl, ?_⟩
  intro d hd
  match d with
  | 0 =>
    have h1 : (psiZE3 nx ny nz ng P dt ex kappa sigma a (f, ψ) u).2 0 = put (ψ 0) (at3 nx ny nz ng (u 0) (u 1) (u 2)) ((ex (-(sigma (u 2) / kappa (u 2) + a (u 2)) * dt)) * ψ 0 (at3 nx ny nz ng (u 0) (u 1) (u 2)) + ccoeff (ex (-(sigma (u 2) / kappa (u 2) + a (u 2)) * dt)) (kappa (u 2)) (sigma (u 2)) (a (u 2)) (P.d 2) * (f.b 1 (at3 nx ny nz ng (u 0) (u 1) (u 2)) - f.b 1 (at3 nx ny nz ng (u 0) (u 1) ((u 2 : Int) - 1)))) := rfl
    have h2 : (psiZE3 nx ny nz ng P dt ex kappa sigma a (f, ψ) u).1.e 0 = put (f.e 0) (at3 nx ny nz ng (u 0) (u 1) (u 2)) (f.e 0 (at3 nx ny nz ng (u 0) (u 1) (u 2)) - (dt * P.c2) * put (ψ 0) (at3 nx ny nz ng (u 0) (u 1) (u 2)) ((ex (-(sigma (u 2) / kappa (u 2) + a (u 2)) * dt)) * ψ 0 (at3 nx ny nz ng (u 0) (u 1) (u 2)) + ccoeff (ex (-(sigma (u 2) / kappa (u 2) + a (u 2)) * dt)) (kappa (u 2)) (sigma (u 2)) (a (u 2)) (P.d 2) * (f.b 1 (at3 nx ny nz ng (u 0) (u 1) (u 2)) - f.b 1 (at3 nx ny nz ng (u 0) (u 1) ((u 2 : Int) - 1)))) (at3 nx ny nz ng (u 0) (u 1) (u 2))) := rfl
    have hD : diffB (cellsOf ![nx, ny, nz] ng f.b) (2 : Fin 3) 0 (fun a => (u a : Int)) = (f.b 1 (at3 nx ny nz ng (u 0) (u 1) (u 2)) - f.b 1 (at3 nx ny nz ng (u 0) (u 1) ((u 2 : Int) - 1))) := by
      rw [at3_own, at3_dn2]; rfl
    have hs : curlSign 0 (comp (2 : Fin 3)) = -1 := rfl
    rw [h1, h2, put_same, hD, hs, at3_own]
    refine ⟨rfl, ?_⟩
    congr 1
    ring
  | 1 =>
    have h1 : (psiZE3 nx ny nz ng P dt ex kappa sigma a (f, ψ) u).2 1 = put (ψ 1) (at3 nx ny nz ng (u 0) (u 1) (u 2)) ((ex (-(sigma (u 2) / kappa (u 2) + a (u 2)) * dt)) * ψ 1 (at3 nx ny nz ng (u 0) (u 1) (u 2)) + ccoeff (ex (-(sigma (u 2) / kappa (u 2) + a (u 2)) * dt)) (kappa (u 2)) (sigma (u 2)) (a (u 2)) (P.d 2) * (f.b 0 (at3 nx ny nz ng (u 0) (u 1) (u 2)) - f.b 0 (at3 nx ny nz ng (u 0) (u 1) ((u 2 : Int) - 1)))) := rfl
    have h2 : (psiZE3 nx ny nz ng P dt ex kappa sigma a (f, ψ) u).1.e 1 = put (f.e 1) (at3 nx ny nz ng (u 0) (u 1) (u 2)) (f.e 1 (at3 nx ny nz ng (u 0) (u 1) (u 2)) + (dt * P.c2) * put (ψ 1) (at3 nx ny nz ng (u 0) (u 1) (u 2)) ((ex (-(sigma (u 2) / kappa (u 2) + a (u 2)) * dt)) * ψ 1 (at3 nx ny nz ng (u 0) (u 1) (u 2)) + ccoeff (ex (-(sigma (u 2) / kappa (u 2) + a (u 2)) * dt)) (kappa (u 2)) (sigma (u 2)) (a (u 2)) (P.d 2) * (f.b 0 (at3 nx ny nz ng (u 0) (u 1) (u 2)) - f.b 0 (at3 nx ny nz ng (u 0) (u 1) ((u 2 : Int) - 1)))) (at3 nx ny nz ng (u 0) (u 1) (u 2))) := rfl
    have hD : diffB (cellsOf ![nx, ny, nz] ng f.b) (2 : Fin 3) 1 (fun a => (u a : Int)) = (f.b 0 (at3 nx ny nz ng (u 0) (u 1) (u 2)) - f.b 0 (at3 nx ny nz ng (u 0) (u 1) ((u 2 : Int) - 1))) := by
      rw [at3_own, at3_dn2]; rfl
    have hs : curlSign 1 (comp (2 : Fin 3)) = 1 := rfl
    rw [h1, h2, put_same, hD, hs, at3_own]
    refine ⟨rfl, ?_⟩
    congr 1
    ring
  | 2 => exact absurd rfl hd

theorem psiZB3_form (nx ny nz ng : Nat) (P : Par 3) (dt : ℚ) (ex : ℚ → ℚ) (kappa sigma a : Nat → ℚ) (f : Fields 3) (ψ : Fin 3 → Arr 3) (u : Fin 3 → Nat) :
    let r := psiZB3 nx ny nz ng P dt ex kappa sigma a (f, ψ) u
    r.1.e = f.e ∧ r.1.j = f.j ∧ r.2 (comp (2 : Fin 3)) = ψ (comp (2 : Fin 3)) ∧
    r.1.b (comp (2 : Fin 3)) = f.b (comp (2 : Fin 3)) ∧
    ∀ d, d ≠ comp (2 : Fin 3) →
      r.2 d = put (ψ d) (index ![nx, ny, nz] ng fun a => u a) ((ex (-(sigma (u 2) / kappa (u 2) + a (u 2)) * dt)) * ψ d (index ![nx, ny, nz] ng fun a => u a) + ccoeff (ex (-(sigma (u 2) / kappa (u 2) + a (u 2)) * dt)) (kappa (u 2)) (sigma (u 2)) (a (u 2)) (P.d 2) * diffE (cellsOf ![nx, ny, nz] ng f.e) (2 : Fin 3) d fun a => u a) ∧
      r.1.b d = put (f.b d) (index ![nx, ny, nz] ng fun a => u a) (f.b d (index ![nx, ny, nz] ng fun a => u a) + -(curlSign d (comp (2 : Fin 3)) * dt) * ((ex (-(sigma (u 2) / kappa (u 2) + a (u 2)) * dt)) * ψ d (index ![nx, ny, nz] ng fun a => u a) + ccoeff (ex (-(sigma (u 2) / kappa (u 2) + a (u 2)) * dt)) (kappa (u 2)) (sigma (u 2)) (a (u 2)) (P.d 2) * diffE (cellsOf ![nx, ny, nz] ng f.e) (2 : Fin 3) d fun a => u a)) := by
  refine ⟨rfl, rfl, rfl, rfl, ?_⟩
  intro d hd
  match d with
  | 0 =>
    have h1 : (psiZB3 nx ny nz ng P dt ex kappa sigma a (f, ψ) u).2 0 = put (ψ 0) (at3 nx ny nz ng (u 0) (u 1) (u 2)) ((ex (-(sigma (u 2) / kappa (u 2) + a (u 2)) * dt)) * ψ 0 (at3 nx ny nz ng (u 0) (u 1) (u 2)) + ccoeff (ex (-(sigma (u 2) / kappa (u 2) + a (u 2)) * dt)) (kappa (u 2)) (sigma (u 2)) (a (u 2)) (P.d 2) * (f.e 1 (at3 nx ny nz ng (u 0) (u 1) ((u 2 : Int) + 1)) - f.e 1 (at3 nx ny nz ng (u 0) (u 1) (u 2)))) := rfl
    have h2 : (psiZB3 nx ny nz ng P dt ex kappa sigma a (f, ψ) u).1.b 0 = put (f.b 0) (at3 nx ny nz ng (u 0) (u 1) (u 2)) (f.b 0 (at3 nx ny nz ng (u 0) (u 1) (u 2)) + dt * put (ψ 0) (at3 nx ny nz ng (u 0) (u 1) (u 2)) ((ex (-(sigma (u 2) / kappa (u 2) + a (u 2)) * dt)) * ψ 0 (at3 nx ny nz ng (u 0) (u 1) (u 2)) + ccoeff (ex (-(sigma (u 2) / kappa (u 2) + a (u 2)) * dt)) (kappa (u 2)) (sigma (u 2)) (a (u 2)) (P.d 2) * (f.e 1 (at3 nx ny nz ng (u 0) (u 1) ((u 2 : Int) + 1)) - f.e 1 (at3 nx ny nz ng (u 0) (u 1) (u 2)))) (at3 nx ny nz ng (u 0) (u 1) (u 2))) := rfl
    have hD : diffE (cellsOf ![nx, ny, nz] ng f.e) (2 : Fin 3) 0 (fun a => (u a : Int)) = (f.e 1 (at3 nx ny nz ng (u 0) (u 1) ((u 2 : Int) + 1)) - f.e 1 (at3 nx ny nz ng (u 0) (u 1) (u 2))) := by
      rw [at3_own, at3_up2]; rfl
    have hs : curlSign 0 (comp (2 : Fin 3)) = -1 := rfl
    rw [h1, h2, put_same, hD, hs, at3_own]
    refine ⟨rfl, ?_⟩
    congr 1
    ring
  | 1 =>
    have h1 : (psiZB3 nx ny nz ng P dt ex kappa sigma a (f, ψ) u).2 1 = put (ψ 1) (at3 nx ny nz ng (u 0) (u 1) (u 2)) ((ex (-(sigma (u 2) / kappa (u 2) + a (u 2)) * dt)) * ψ 1 (at3 nx ny nz ng (u 0) (u 1) (u 2)) + ccoeff (ex (-(sigma (u 2) / kappa (u 2) + a (u 2)) * dt)) (kappa (u 2)) (sigma (u 2)) (a (u 2)) (P.d 2) * (f.e 0 (at3 nx ny nz ng (u 0) (u 1) ((u 2 : Int) + 1)) - f.e 0 (at3 nx ny nz ng (u 0) (u 1) (u 2)))) := rfl
    have h2 : (psiZB3 nx ny nz ng P dt ex kappa sigma a (f, ψ) u).1.b 1 = put (f.b 1) (at3 nx ny nz ng (u 0) (u 1) (u 2)) (f.b 1 (at3 nx ny nz ng (u 0) (u 1) (u 2)) - dt * put (ψ 1) (at3 nx ny nz ng (u 0) (u 1) (u 2)) ((ex (-(sigma (u 2) / kappa (u 2) + a (u 2)) * dt)) * ψ 1 (at3 nx ny nz ng (u 0) (u 1) (u 2)) + ccoeff (ex (-(sigma (u 2) / kappa (u 2) + a (u 2)) * dt)) (kappa (u 2)) (sigma (u 2)) (a (u 2)) (P.d 2) * (f.e 0 (at3 nx ny nz ng (u 0) (u 1) ((u 2 : Int) + 1)) - f.e 0 (at3 nx ny nz ng (u 0) (u 1) (u 2)))) (at3 nx ny nz ng (u 0) (u 1) (u 2))) := rfl
    have hD : diffE (cellsOf ![nx, ny, nz] ng f.e) (2 : Fin 3) 1 (fun a => (u a : Int)) = (f.e 0 (at3 nx ny nz ng (u 0) (u 1) ((u 2 : Int) + 1)) - f.e 0 (at3 nx ny nz ng (u 0) (u 1) (u 2))) := by
      rw [at3_own, at3_up2]; rfl
    have hs : curlSign 1 (comp (2 : Fin 3)) = 1 := rfl
    rw [h1, h2, put_same, hD, hs, at3_own]
    refine ⟨rfl, ?_⟩
    congr 1
    ring
  | 2 => exact absurd rfl hd

theorem eCpml2_form (nx ny ng : Nat) (P : Par 2) (dt : ℚ) (kx ky : Nat → ℚ) (f : Fields 2) (u : Fin 2 → Nat) :
    (eCpml2 nx ny ng P dt kx ky f u).b = f.b ∧ (eCpml2 nx ny ng P dt kx ky f u).j = f.j ∧
    ∀ d, (eCpml2 nx ny ng P dt kx ky f u).e d = put (f.e d) (index ![nx, ny] ng fun a => u a) (f.e d (index ![nx, ny] ng fun a => u a) + stretchE P dt ![kx, ky] (cellsOf ![nx, ny] ng f.b) (cellsOf ![nx, ny] ng f.j) d fun a => u a) := by
  refine ⟨rfl, rfl, ?_⟩
  intro d
  match d with
  | 0 =>
    have h : (eCpml2 nx ny ng P dt kx ky f u).e 0 = put (f.e 0) (at2 nx ny ng (u 0) (u 1)) (f.e 0 (at2 nx ny ng (u 0) (u 1)) + (dt * P.c2 / ky (u 1) * ((f.b 2 (at2 nx ny ng (u 0) (u 1)) - f.b 2 (at2 nx ny ng (u 0) ((u 1 : Int) - 1))) / P.d 1) - dt / P.eps0 * f.j 0 (at2 nx ny ng (u 0) (u 1)))) := rfl
    have hD1 : diffB (cellsOf ![nx, ny] ng f.b) (1 : Fin 2) 0 (fun a => (u a : Int)) = (f.b 2 (at2 nx ny ng (u 0) (u 1)) - f.b 2 (at2 nx ny ng (u 0) ((u 1 : Int) - 1))) := by
      rw [at2_own, at2_dn1]; rfl
    have hs0 : curlSign 0 (comp (0 : Fin 2)) = 0 := rfl
    have hk0 : ![kx, ky] (0 : Fin 2) ((u 0 : Int)).toNat = kx (u 0) := by rw [Int.toNat_natCast]; rfl
    have hs1 : curlSign 0 (comp (1 : Fin 2)) = 1 := rfl
    have hk1 : ![kx, ky] (1 : Fin 2) ((u 1 : Int)).toNat = ky (u 1) := by rw [Int.toNat_natCast]; rfl
    rw [h]
    unfold stretchE
    rw [Fin.sum_univ_two]
    dsimp only
    rw [hs0, hk0, hs1, hk1, hD1]
    simp only [at2_own, cellsOf]
    congr 1
    ring
  | 1 =>
    have h : (eCpml2 nx ny ng P dt kx ky f u).e 1 = put (f.e 1) (at2 nx ny ng (u 0) (u 1)) (f.e 1 (at2 nx ny ng (u 0) (u 1)) + (dt * P.c2 / kx (u 0) * (-(f.b 2 (at2 nx ny ng (u 0) (u 1)) - f.b 2 (at2 nx ny ng ((u 0 : Int) - 1) (u 1))) / P.d 0) - dt / P.eps0 * f.j 1 (at2 nx ny ng (u 0) (u 1)))) := rfl
    have hD0 : diffB (cellsOf ![nx, ny] ng f.b) (0 : Fin 2) 1 (fun a => (u a : Int)) = (f.b 2 (at2 nx ny ng (u 0) (u 1)) - f.b 2 (at2 nx ny ng ((u 0 : Int) - 1) (u 1))) := by
      rw [at2_own, at2_dn0]; rfl
    have hs0 : curlSign 1 (comp (0 : Fin 2)) = -1 := rfl
    have hk0 : ![kx, ky] (0 : Fin 2) ((u 0 : Int)).toNat = kx (u 0) := by rw [Int.toNat_natCast]; rfl
    have hs1 : curlSign 1 (comp (1 : Fin 2)) = 0 := rfl
    have hk1 : ![kx, ky] (1 : Fin 2) ((u 1 : Int)).toNat = ky (u 1) := by rw [Int.toNat_natCast]; rfl
    rw [h]
    unfold stretchE
    rw [Fin.sum_univ_two]
    dsimp only
    rw [hs0, hk0, hs1, hk1, hD0]
    simp only [at2_own, cellsOf]
    congr 1
    ring
  | 2 =>
    have h : (eCpml2 nx ny ng P dt kx ky f u).e 2 = put (f.e 2) (at2 nx ny ng (u 0) (u 1)) (f.e 2 (at2 nx ny ng (u 0) (u 1)) + (dt * P.c2 / kx (u 0) * ((f.b 1 (at2 nx ny ng (u 0) (u 1)) - f.b 1 (at2 nx ny ng ((u 0 : Int) - 1) (u 1))) / P.d 0) - dt * P.c2 / ky (u 1) * ((f.b 0 (at2 nx ny ng (u 0) (u 1)) - f.b 0 (at2 nx ny ng (u 0) ((u 1 : Int) - 1))) / P.d 1) - dt / P.eps0 * f.j 2 (at2 nx ny ng (u 0) (u 1)))) := rfl
    have hD0 : diffB (cellsOf ![nx, ny] ng f.b) (0 : Fin 2) 2 (fun a => (u a : Int)) = (f.b 1 (at2 nx ny ng (u 0) (u 1)) - f.b 1 (at2 nx ny ng ((u 0 : Int) - 1) (u 1))) := by
      rw [at2_own, at2_dn0]; rfl
    have hD1 : diffB (cellsOf ![nx, ny] ng f.b) (1 : Fin 2) 2 (fun a => (u a : Int)) = (f.b 0 (at2 nx ny ng (u 0) (u 1)) - f.b 0 (at2 nx ny ng (u 0) ((u 1 : Int) - 1))) := by
      rw [at2_own, at2_dn1]; rfl
    have hs0 : curlSign 2 (comp (0 : Fin 2)) = 1 := rfl
    have hk0 : ![kx, ky] (0 : Fin 2) ((u 0 : Int)).toNat = kx (u 0) := by rw [Int.toNat_natCast]; rfl
    have hs1 : curlSign 2 (comp (1 : Fin 2)) = -1 := rfl
    have hk1 : ![kx, ky] (1 : Fin 2) ((u 1 : Int)).toNat = ky (u 1) := by rw [Int.toNat_natCast]; rfl
    rw [h]
    unfold stretchE
    rw [Fin.sum_univ_two]
    dsimp only
    rw [hs0, hk0, hs1, hk1, hD0, hD1]
    simp only [at2_own, cellsOf]
    congr 1
    ring

theorem bCpml2_form (nx ny ng : Nat) (P : Par 2) (dt : ℚ) (kx ky : Nat → ℚ) (f : Fields 2) (u : Fin 2 → Nat) :
    (bCpml2 nx ny ng P dt kx ky f u).e = f.e ∧ (bCpml2 nx ny ng P dt kx ky f u).j = f.j ∧
    ∀ d, (bCpml2 nx ny ng P dt kx ky f u).b d = put (f.b d) (index ![nx, ny] ng fun a => u a) (f.b d (index ![nx, ny] ng fun a => u a) + stretchB P dt ![kx, ky] (cellsOf ![nx, ny] ng f.e) d fun a => u a) := by
  refine ⟨rfl, rfl, ?_⟩
  intro d
  match d with
  | 0 =>
    have h : (bCpml2 nx ny ng P dt kx ky f u).b 0 = put (f.b 0) (at2 nx ny ng (u 0) (u 1)) (f.b 0 (at2 nx ny ng (u 0) (u 1)) - (dt / ky (u 1) * ((f.e 2 (at2 nx ny ng (u 0) ((u 1 : Int) + 1)) - f.e 2 (at2 nx ny ng (u 0) (u 1))) / P.d 1))) := rfl
    have hD1 : diffE (cellsOf ![nx, ny] ng f.e) (1 : Fin 2) 0 (fun a => (u a : Int)) = (f.e 2 (at2 nx ny ng (u 0) ((u 1 : Int) + 1)) - f.e 2 (at2 nx ny ng (u 0) (u 1))) := by
      rw [at2_own, at2_up1]; rfl
    have hs0 : curlSign 0 (comp (0 : Fin 2)) = 0 := rfl
    have hk0 : ![kx, ky] (0 : Fin 2) ((u 0 : Int)).toNat = kx (u 0) := by rw [Int.toNat_natCast]; rfl
    have hs1 : curlSign 0 (comp (1 : Fin 2)) = 1 := rfl
    have hk1 : ![kx, ky] (1 : Fin 2) ((u 1 : Int)).toNat = ky (u 1) := by rw [Int.toNat_natCast]; rfl
    rw [h]
    unfold stretchB
    rw [Fin.sum_univ_two]
    dsimp only
    rw [hs0, hk0, hs1, hk1, hD1]
    simp only [at2_own, cellsOf]
    congr 1
    ring
  | 1 =>
    have h : (bCpml2 nx ny ng P dt kx ky f u).b 1 = put (f.b 1) (at2 nx ny ng (u 0) (u 1)) (f.b 1 (at2 nx ny ng (u 0) (u 1)) - (dt / kx (u 0) * (-(f.e 2 (at2 nx ny ng ((u 0 : Int) + 1) (u 1)) - f.e 2 (at2 nx ny ng (u 0) (u 1))) / P.d 0))) := rfl
    have hD0 : diffE (cellsOf ![nx, ny] ng f.e) (0 : Fin 2) 1 (fun a => (u a : Int)) = (f.e 2 (at2 nx ny ng ((u 0 : Int) + 1) (u 1)) - f.e 2 (at2 nx ny ng (u 0) (u 1))) := by
      rw [at2_own, at2_up0]; rfl
    have hs0 : curlSign 1 (comp (0 : Fin 2)) = -1 := rfl
    have hk0 : ![kx, ky] (0 : Fin 2) ((u 0 : Int)).toNat = kx (u 0) := by rw [Int.toNat_natCast]; rfl
    have hs1 : curlSign 1 (comp (1 : Fin 2)) = 0 := rfl
    have hk1 : ![kx, ky] (1 : Fin 2) ((u 1 : Int)).toNat = ky (u 1) := by rw [Int.toNat_natCast]; rfl
    rw [h]
    unfold stretchB
    rw [Fin.sum_univ_two]
    dsimp only
    rw [hs0, hk0, hs1, hk1, hD0]
    simp only [at2_own, cellsOf]
    congr 1
    ring
  | 2 =>
    have h : (bCpml2 nx ny ng P dt kx ky f u).b 2 = put (f.b 2) (at2 nx ny ng (u 0) (u 1)) (f.b 2 (at2 nx ny ng (u 0) (u 1)) - ((dt / kx (u 0) * ((f.e 1 (at2 nx ny ng ((u 0 : Int) + 1) (u 1)) - f.e 1 (at2 nx ny ng (u 0) (u 1))) / P.d 0) - dt / ky (u 1) * ((f.e 0 (at2 nx ny ng (u 0) ((u 1 : Int) + 1)) - f.e 0 (at2 nx ny ng (u 0) (u 1))) / P.d 1)))) := rfl
    have hD0 : diffE (cellsOf ![nx, ny] ng f.e) (0 : Fin 2) 2 (fun a => (u a : Int)) = (f.e 1 (at2 nx ny ng ((u 0 : Int) + 1) (u 1)) - f.e 1 (at2 nx ny ng (u 0) (u 1))) := by
      rw [at2_own, at2_up0]; rfl
    have hD1 : diffE (cellsOf ![nx, ny] ng f.e) (1 : Fin 2) 2 (fun a => (u a : Int)) = (f.e 0 (at2 nx ny ng (u 0) ((u 1 : Int) + 1)) - f.e 0 (at2 nx ny ng (u 0) (u 1))) := by
      rw [at2_own, at2_up1]; rfl
    have hs0 : curlSign 2 (comp (0 : Fin 2)) = 1 := rfl
    have hk0 : ![kx, ky] (0 : Fin 2) ((u 0 : Int)).toNat = kx (u 0) := by rw [Int.toNat_natCast]; rfl
    have hs1 : curlSign 2 (comp (1 : Fin 2)) = -1 := rfl
    have hk1 : ![kx, ky] (1 : Fin 2) ((u 1 : Int)).toNat = ky (u 1) := by rw [Int.toNat_natCast]; rfl
    rw [h]
    unfold stretchB
    rw [Fin.sum_univ_two]
    dsimp only
    rw [hs0, hk0, hs1, hk1, hD0, hD1]
    simp only [at2_own, cellsOf]
    congr 1
    ring

theorem eCpml3_form (nx ny nz ng : Nat) (P : Par 3) (dt : ℚ) (kx ky kz : Nat → ℚ) (f : Fields 3) (u : Fin 3 → Nat) :
    (eCpml3 nx ny nz ng P dt kx ky kz f u).b = f.b ∧ (eCpml3 nx ny nz ng P dt kx ky kz f u).j = f.j ∧
    ∀ d, (eCpml3 nx ny nz ng P dt kx ky kz f u).e d = put (f.e d) (index ![nx, ny, nz] ng fun a => u a) (f.e d (index ![nx, ny, nz] ng fun a => u a) + stretchE P dt ![kx, ky, kz] (cellsOf ![nx, ny, nz] ng f.b) (cellsOf ![nx, ny, nz] ng f.j) d fun a => u a) := by
  refine ⟨rfl, rfl, ?_⟩
  intro d
  match d with
  | 0 =>
    have h : (eCpml3 nx ny nz ng P dt kx ky kz f u).e 0 = put (f.e 0) (at3 nx ny nz ng (u 0) (u 1) (u 2)) (f.e 0 (at3 nx ny nz ng (u 0) (u 1) (u 2)) + ((dt * P.c2 / ky (u 1) * (f.b 2 (at3 nx ny nz ng (u 0) (u 1) (u 2)) - f.b 2 (at3 nx ny nz ng (u 0) ((u 1 : Int) - 1) (u 2))) / P.d 1 - dt * P.c2 / kz (u 2) * (f.b 1 (at3 nx ny nz ng (u 0) (u 1) (u 2)) - f.b 1 (at3 nx ny nz ng (u 0) (u 1) ((u 2 : Int) - 1))) / P.d 2) - dt / P.eps0 * f.j 0 (at3 nx ny nz ng (u 0) (u 1) (u 2)))) := rfl
    have hD1 : diffB (cellsOf ![nx, ny, nz] ng f.b) (1 : Fin 3) 0 (fun a => (u a : Int)) = (f.b 2 (at3 nx ny nz ng (u 0) (u 1) (u 2)) - f.b 2 (at3 nx ny nz ng (u 0) ((u 1 : Int) - 1) (u 2))) := by
      rw [at3_own, at3_dn1]; rfl
    have hD2 : diffB (cellsOf ![nx, ny, nz] ng f.b) (2 : Fin 3) 0 (fun a => (u a : Int)) = (f.b 1 (at3 nx ny nz ng (u 0) (u 1) (u 2)) - f.b 1 (at3 nx ny nz ng (u 0) (u 1) ((u 2 : Int) - 1))) := by
      rw [at3_own, at3_dn2]; rfl
    have hs0 : curlSign 0 (comp (0 : Fin 3)) = 0 := rfl
    have hk0 : ![kx, ky, kz] (0 : Fin 3) ((u 0 : Int)).toNat = kx (u 0) := by rw [Int.toNat_natCast]; rfl
    have hs1 : curlSign 0 (comp (1 : Fin 3)) = 1 := rfl
    have hk1 : ![kx, ky, kz] (1 : Fin 3) ((u 1 : Int)).toNat = ky (u 1) := by rw [Int.toNat_natCast]; rfl
    have hs2 : curlSign 0 (comp (2 : Fin 3)) = -1 := rfl
    have hk2 : ![kx, ky, kz] (2 : Fin 3) ((u 2 : Int)).toNat = kz (u 2) := by rw [Int.toNat_natCast]; rfl
    rw [h]
    unfold stretchE
    rw [Fin.sum_univ_three]
    dsimp only
    rw [hs0, hk0, hs1, hk1, hs2, hk2, hD1, hD2]
    simp only [at3_own, cellsOf]
    congr 1
    ring
  | 1 =>
    have h : (eCpml3 nx ny nz ng P dt kx ky kz f u).e 1 = put (f.e 1) (at3 nx ny nz ng (u 0) (u 1) (u 2)) (f.e 1 (at3 nx ny nz ng (u 0) (u 1) (u 2)) + ((dt * P.c2 / kz (u 2) * (f.b 0 (at3 nx ny nz ng (u 0) (u 1) (u 2)) - f.b 0 (at3 nx ny nz ng (u 0) (u 1) ((u 2 : Int) - 1))) / P.d 2 - dt * P.c2 / kx (u 0) * (f.b 2 (at3 nx ny nz ng (u 0) (u 1) (u 2)) - f.b 2 (at3 nx ny nz ng ((u 0 : Int) - 1) (u 1) (u 2))) / P.d 0) - dt / P.eps0 * f.j 1 (at3 nx ny nz ng (u 0) (u 1) (u 2)))) := rfl
    have hD0 : diffB (cellsOf ![nx, ny, nz] ng f.b) (0 : Fin 3) 1 (fun a => (u a : Int)) = (f.b 2 (at3 nx ny nz ng (u 0) (u 1) (u 2)) - f.b 2 (at3 nx ny nz ng ((u 0 : Int) - 1) (u 1) (u 2))) := by
      rw [at3_own, at3_dn0]; rfl
    have hD2 : diffB (cellsOf ![nx, ny, nz] ng f.b) (2 : Fin 3) 1 (fun a => (u a : Int)) = (f.b 0 (at3 nx ny nz ng (u 0) (u 1) (u 2)) - f.b 0 (at3 nx ny nz ng (u 0) (u 1) ((u 2 : Int) - 1))) := by
      rw [at3_own, at3_dn2]; rfl
    have hs0 : curlSign 1 (comp (0 : Fin 3)) = -1 := rfl
    have hk0 : ![kx, ky, kz] (0 : Fin 3) ((u 0 : Int)).toNat = kx (u 0) := by rw [Int.toNat_natCast]; rfl
    have hs1 : curlSign 1 (comp (1 : Fin 3)) = 0 := rfl
    have hk1 : ![kx, ky, kz] (1 : Fin 3) ((u 1 : Int)).toNat = ky (u 1) := by rw [Int.toNat_natCast]; rfl
    have hs2 : curlSign 1 (comp (2 : Fin 3)) = 1 := rfl
    have hk2 : ![kx, ky, kz] (2 : Fin 3) ((u 2 : Int)).toNat = kz (u 2) := by rw [Int.toNat_natCast]; rfl
    rw [h]
    unfold stretchE
    rw [Fin.sum_univ_three]
    dsimp only
    rw [hs0, hk0, hs1, hk1, hs2, hk2, hD0, hD2]
    simp only [at3_own, cellsOf]
    congr 1
    ring
  | 2 =>
    have h : (eCpml3 nx ny nz ng P dt kx ky kz f u).e 2 = put (f.e 2) (at3 nx ny nz ng (u 0) (u 1) (u 2)) (f.e 2 (at3 nx ny nz ng (u 0) (u 1) (u 2)) + ((dt * P.c2 / kx (u 0) * (f.b 1 (at3 nx ny nz ng (u 0) (u 1) (u 2)) - f.b 1 (at3 nx ny nz ng ((u 0 : Int) - 1) (u 1) (u 2))) / P.d 0 - dt * P.c2 / ky (u 1) * (f.b 0 (at3 nx ny nz ng (u 0) (u 1) (u 2)) - f.b 0 (at3 nx ny nz ng (u 0) ((u 1 : Int) - 1) (u 2))) / P.d 1) - dt / P.eps0 * f.j 2 (at3 nx ny nz ng (u 0) (u 1) (u 2)))) := rfl
    have hD0 : diffB (cellsOf ![nx, ny, nz] ng f.b) (0 : Fin 3) 2 (fun a => (u a : Int)) = (f.b 1 (at3 nx ny nz ng (u 0) (u 1) (u 2)) - f.b 1 (at3 nx ny nz ng ((u 0 : Int) - 1) (u 1) (u 2))) := by
      rw [at3_own, at3_dn0]; rfl
    have hD1 : diffB (cellsOf ![nx, ny, nz] ng f.b) (1 : Fin 3) 2 (fun a => (u a : Int)) = (f.b 0 (at3 nx ny nz ng (u 0) (u 1) (u 2)) - f.b 0 (at3 nx ny nz ng (u 0) ((u 1 : Int) - 1) (u 2))) := by
      rw [at3_own, at3_dn1]; rfl
    have hs0 : curlSign 2 (comp (0 : Fin 3)) = 1 := rfl
    have hk0 : ![kx, ky, kz] (0 : Fin 3) ((u 0 : Int)).toNat = kx (u 0) := by rw [Int.toNat_natCast]; rfl
    have hs1 : curlSign 2 (comp (1 : Fin 3)) = -1 := rfl
    have hk1 : ![kx, ky, kz] (1 : Fin 3) ((u 1 : Int)).toNat = ky (u 1) := by rw [Int.toNat_natCast]; rfl
    have hs2 : curlSign 2 (comp (2 : Fin 3)) = 0 := rfl
    have hk2 : ![kx, ky, kz] (2 : Fin 3) ((u 2 : Int)).toNat = kz (u 2) := by rw [Int.toNat_natCast]; rfl
    rw [h]
    unfold stretchE
    rw [Fin.sum_univ_three]
    dsimp only
    rw [hs0, hk0, hs1, hk1, hs2, hk2, hD0, hD1]
    simp only [at3_own, cellsOf]
    congr 1
    ring

theorem bCpml3_form (nx ny nz ng : Nat) (P : Par 3) (dt : ℚ) (kx ky kz : Nat → ℚ) (f : Fields 3) (u : Fin 3 → Nat) :
    (bCpml3 nx ny nz ng P dt kx ky kz f u).e = f.e ∧ (bCpml3 nx ny nz ng P dt kx ky kz f u).j = f.j ∧
    ∀ d, (bCpml3 nx ny nz ng P dt kx ky kz f u).b d = put (f.b d) (index ![nx, ny, nz] ng fun a => u a) (f.b d (index ![nx, ny, nz] ng fun a => u a) + stretchB P dt ![kx, ky, kz] (cellsOf ![nx, ny, nz] ng f.e) d fun a => u a) := by
  refine ⟨rfl, rfl, ?_⟩
  intro d
  match d with
  | 0 =>
    have h : (bCpml3 nx ny nz ng P dt kx ky kz f u).b 0 = put (f.b 0) (at3 nx ny nz ng (u 0) (u 1) (u 2)) (f.b 0 (at3 nx ny nz ng (u 0) (u 1) (u 2)) - ((dt / ky (u 1) * (f.e 2 (at3 nx ny nz ng (u 0) ((u 1 : Int) + 1) (u 2)) - f.e 2 (at3 nx ny nz ng (u 0) (u 1) (u 2))) / P.d 1 - dt / kz (u 2) * (f.e 1 (at3 nx ny nz ng (u 0) (u 1) ((u 2 : Int) + 1)) - f.e 1 (at3 nx ny nz ng (u 0) (u 1) (u 2))) / P.d 2))) := rfl
    have hD1 : diffE (cellsOf ![nx, ny, nz] ng f.e) (1 : Fin 3) 0 (fun a => (u a : Int)) = (f.e 2 (at3 nx ny nz ng (u 0) ((u 1 : Int) + 1) (u 2)) - f.e 2 (at3 nx ny nz ng (u 0) (u 1) (u 2))) := by
      rw [at3_own, at3_up1]; rfl
    have hD2 : diffE (cellsOf ![nx, ny, nz] ng f.e) (2 : Fin 3) 0 (fun a => (u a : Int)) = (f.e 1 (at3 nx ny nz ng (u 0) (u 1) ((u 2 : Int) + 1)) - f.e 1 (at3 nx ny nz ng (u 0) (u 1) (u 2))) := by
      rw [at3_own, at3_up2]; rfl
    have hs0 : curlSign 0 (comp (0 : Fin 3)) = 0 := rfl
    have hk0 : ![kx, ky, kz] (0 : Fin 3) ((u 0 : Int)).toNat = kx (u 0) := by rw [Int.toNat_natCast]; rfl
    have hs1 : curlSign 0 (comp (1 : Fin 3)) = 1 := rfl
    have hk1 : ![kx, ky, kz] (1 : Fin 3) ((u 1 : Int)).toNat = ky (u 1) := by rw [Int.toNat_natCast]; rfl
    have hs2 : curlSign 0 (comp (2 : Fin 3)) = -1 := rfl
    have hk2 : ![kx, ky, kz] (2 : Fin 3) ((u 2 : Int)).toNat = kz (u 2) := by rw [Int.toNat_natCast]; rfl
    rw [h]
    unfold stretchB
    rw [Fin.sum_univ_three]
    dsimp only
    rw [hs0, hk0, hs1, hk1, hs2, hk2, hD1, hD2]
    simp only [at3_own, cellsOf]
    congr 1
    ring
  | 1 =>
    have h : (bCpml3 nx ny nz ng P dt kx ky kz f u).b 1 = put (f.b 1) (at3 nx ny nz ng (u 0) (u 1) (u 2)) (f.b 1 (at3 nx ny nz ng (u 0) (u 1) (u 2)) - ((dt / kz (u 2) * (f.e 0 (at3 nx ny nz ng (u 0) (u 1) ((u 2 : Int) + 1)) - f.e 0 (at3 nx ny nz ng (u 0) (u 1) (u 2))) / P.d 2 - dt / kx (u 0) * (f.e 2 (at3 nx ny nz ng ((u 0 : Int) + 1) (u 1) (u 2)) - f.e 2 (at3 nx ny nz ng (u 0) (u 1) (u 2))) / P.d 0))) := rfl
    have hD0 : diffE (cellsOf ![nx, ny, nz] ng f.e) (0 : Fin 3) 1 (fun a => (u a : Int)) = (f.e 2 (at3 nx ny nz ng ((u 0 : Int) + 1) (u 1) (u 2)) - f.e 2 (at3 nx ny nz ng (u 0) (u 1) (u 2))) := by
      rw [at3_own, at3_up0]; rfl
    have hD2 : diffE (cellsOf ![nx, ny, nz] ng f.e) (2 : Fin 3) 1 (fun a => (u a : Int)) = (f.e 0 (at3 nx ny nz ng (u 0) (u 1) ((u 2 : Int) + 1)) - f.e 0 (at3 nx ny nz ng (u 0) (u 1) (u 2))) := by
      rw [at3_own, at3_up2]; rfl
    have hs0 : curlSign 1 (comp (0 : Fin 3)) = -1 := rfl
    have hk0 : ![kx, ky, kz] (0 : Fin 3) ((u 0 : Int)).toNat = kx (u 0) := by rw [Int.toNat_natCast]; rfl
    have hs1 : curlSign 1 (comp (1 : Fin 3)) = 0 := rfl
    have hk1 : ![kx, ky, kz] (1 : Fin 3) ((u 1 : Int)).toNat = ky (u 1) := by rw [Int.toNat_natCast]; rfl
    have hs2 : curlSign 1 (comp (2 : Fin 3)) = 1 := rfl
    have hk2 : ![kx, ky, kz] (2 : Fin 3) ((u 2 : Int)).toNat = kz (u 2) := by rw [Int.toNat_natCast]; rfl
    rw [h]
    unfold stretchB
    rw [Fin.sum_univ_three]
    dsimp only
    rw [hs0, hk0, hs1, hk1, hs2, hk2, hD0, hD2]
    simp only [at3_own, cellsOf]
    congr 1
    ring
  | 2 =>
    have h : (bCpml3 nx ny nz ng P dt kx ky kz f u).b 2 = put (f.b 2) (at3 nx ny nz ng (u 0) (u 1) (u 2)) (f.b 2 (at3 nx ny nz ng (u 0) (u 1) (u 2)) - ((dt / kx (u 0) * (f.e 1 (at3 nx ny nz ng ((u 0 : Int) + 1) (u 1) (u 2)) - f.e 1 (at3 nx ny nz ng (u 0) (u 1) (u 2))) / P.d 0 - dt / ky (u 1) * (f.e 0 (at3 nx ny nz ng (u 0) ((u 1 : Int) + 1) (u 2)) - f.e 0 (at3 nx ny nz ng (u 0) (u 1) (u 2))) / P.d 1))) := rfl
    have hD0 : diffE (cellsOf ![nx, ny, nz] ng f.e) (0 : Fin 3) 2 (fun a => (u a : Int)) = (f.e 1 (at3 nx ny nz ng ((u 0 : Int) + 1) (u 1) (u 2)) - f.e 1 (at3 nx ny nz ng (u 0) (u 1) (u 2))) := by
      rw [at3_own, at3_up0]; rfl
    have hD1 : diffE (cellsOf ![nx, ny, nz] ng f.e) (1 : Fin 3) 2 (fun a => (u a : Int)) = (f.e 0 (at3 nx ny nz ng (u 0) ((u 1 : Int) + 1) (u 2)) - f.e 0 (at3 nx ny nz ng (u 0) (u 1) (u 2))) := by
      rw [at3_own, at3_up1]; rfl
    have hs0 : curlSign 2 (comp (0 : Fin 3)) = 1 := rfl
    have hk0 : ![kx, ky, kz] (0 : Fin 3) ((u 0 : Int)).toNat = kx (u 0) := by rw [Int.toNat_natCast]; rfl
    have hs1 : curlSign 2 (comp (1 : Fin 3)) = -1 := rfl
    have hk1 : ![kx, ky, kz] (1 : Fin 3) ((u 1 : Int)).toNat = ky (u 1) := by rw [Int.toNat_natCast]; rfl
    have hs2 : curlSign 2 (comp (2 : Fin 3)) = 0 := rfl
    have hk2 : ![kx, ky, kz] (2 : Fin 3) ((u 2 : Int)).toNat = kz (u 2) := by rw [Int.toNat_natCast]; rfl
    rw [h]
    unfold stretchB
    rw [Fin.sum_univ_three]
    dsimp only
    rw [hs0, hk0, hs1, hk1, hs2, hk2, hD0, hD1]
    simp only [at3_own, cellsOf]
    congr 1
    ring

/-- one layer's step for E -/
structure StepE (P : Par k) (dt : ℚ) (ex : ℚ → ℚ) (n : Fin k → Nat) (ng : Nat) (l : Layer k) (f : Fields k) (r : Fields k × Layer k) : Prop where
  src : r.1.b = f.b
  j : r.1.j = f.j
  layer : l.AfterE P dt ex n ng (cellsOf n ng f.b) r.2
  cells : ∀ d v, Own n v → r.1.e d (index n ng v) = f.e d (index n ng v) + l.addE P dt ex n ng (cellsOf n ng f.b) d v
  frame : ∀ d x, (∀ v, Own n v → index n ng v ≠ x) → r.1.e d x = f.e d x

/-- `b psi + c difference` of the loop body -/
def newPsiE (P : Par k) (dt : ℚ) (ex : ℚ → ℚ) (n : Fin k → Nat) (ng : Nat) (A : Fin k) (kappa sigma a : Nat → ℚ) (b : Fin 3 → Arr k) (x : ℚ) (d : Fin 3)
    (u : Fin k → Nat) : ℚ :=
  ex (-(sigma (u A) / kappa (u A) + a (u A)) * dt) * x +
    ccoeff (ex (-(sigma (u A) / kappa (u A) + a (u A)) * dt)) (kappa (u A)) (sigma (u A)) (a (u A)) (P.d A) *
      diffB (cellsOf n ng b) A d fun a => u a

theorem advance_e (n : Fin k → Nat) (ng : Nat) (P : Par k) (dt : ℚ) (ex : ℚ → ℚ) (l : Layer k) (A : Fin k) (hA : l.axis = A)
    (body : Fields k × (Fin 3 → Arr k) → (Fin k → Nat) → Fields k × (Fin 3 → Arr k))
    (hbody : ∀ f ψ u, (body (f, ψ) u).1.b = f.b ∧ (body (f, ψ) u).1.j = f.j ∧ (body (f, ψ) u).2 (comp A) = ψ (comp A) ∧
      (body (f, ψ) u).1.e (comp A) = f.e (comp A) ∧
      ∀ d, d ≠ comp A →
        (body (f, ψ) u).2 d = put (ψ d) (index n ng fun a => u a)
          (newPsiE P dt ex n ng A l.kE l.sE l.aE f.b (ψ d (index n ng fun a => u a)) d u) ∧
        (body (f, ψ) u).1.e d = put (f.e d) (index n ng fun a => u a) (f.e d (index n ng fun a => u a) +
          curlSign d (comp A) * (dt * P.c2) * newPsiE P dt ex n ng A l.kE l.sE l.aE f.b (ψ d (index n ng fun a => u a)) d u))
    (L : List (Fin k → Nat)) (hmem : ∀ u, u ∈ L ↔ (∀ a, u a < n a) ∧ l.startE ≤ u A ∧ u A < l.stopE) (hnd : L.Nodup) (f : Fields k) :
    StepE P dt ex n ng l f ((L.foldl body (f, l.psiE)).1, { l with psiE := (L.foldl body (f, l.psiE)).2 }) := by
  subst hA
  obtain ⟨h1, h2, h3, h4, h5, h6⟩ := fold_pe n ng (comp l.axis) body _ _ hbody L (fun u hu => ((hmem u).mp hu).1) hnd f l.psiE
  have hin : ∀ v, Own n v → l.InE v → ∃ u ∈ L, v = fun a => (u a : Int) := by
    intro v hv hi
    obtain ⟨u, hu, rfl⟩ := own_nat hv
    refine ⟨u, (hmem u).mpr ⟨hu, ?_⟩, rfl⟩
    obtain ⟨i1, i2⟩ := hi
    dsimp only at i1 i2
    constructor <;> omega
  have hout : ∀ v, Own n v → ¬ l.InE v → ∀ u ∈ L, (index n ng fun a => (u a : Int)) ≠ index n ng v := by
    intro v hv hi u hu e
    obtain ⟨hu1, hu2, hu3⟩ := (hmem u).mp hu
    have ho : Own n fun a => (u a : Int) := fun a => by have := hu1 a; constructor <;> dsimp only <;> omega
    have := index_inj (ho.inRange ng) (hv.inRange ng) e
    apply hi
    rw [← this]
    unfold Layer.InE
    dsimp only
    constructor <;> omega
  have hp : ∀ d u, newPsiE P dt ex n ng l.axis l.kE l.sE l.aE f.b (l.psiE d (index n ng fun a => (u a : Int))) d u =
      l.psiE' P dt ex n ng (cellsOf n ng f.b) d fun a => (u a : Int) := fun d u => by
    unfold newPsiE Layer.psiE' Layer.bE
    dsimp only
    rw [Int.toNat_natCast]
  refine ⟨h1, h2, ⟨rfl, ?_, ?_⟩, ?_, ?_⟩
  · intro d hd v hv hi
    obtain ⟨u, hu, rfl⟩ := hin v hv hi
    exact (h5 d hd u hu).1.trans (hp d u)
  · intro d hd v hv hi
    exact (h6 d _ (hout v hv hi)).1
  · intro d v hv
    unfold Layer.addE
    dsimp only
    by_cases hi : l.InE v
    · rw [if_pos hi]
      obtain ⟨u, hu, rfl⟩ := hin v hv hi
      by_cases hd : d = comp l.axis
      · rw [hd, h4, csd]; ring
      · rw [(h5 d hd u hu).2, hp]; ring
    · rw [if_neg hi, (h6 d _ (hout v hv hi)).2, add_zero]
  · intro d x hx
    refine (h6 d x fun u hu => hx _ fun a => ?_).2
    have := ((hmem u).mp hu).1 a
    constructor <;> omega

/-- the layers of a patch one after the other -/
theorem layers_e (n : Fin k → Nat) (ng : Nat) (P : Par k) (dt : ℚ) (ex : ℚ → ℚ) (adv : Layer k → Fields k → Fields k × Layer k)
    (hadv : ∀ l f, l.stopE ≤ n l.axis → StepE P dt ex n ng l f (adv l f)) :
    ∀ (ls : List (Layer k)), (∀ l ∈ ls, l.stopE ≤ n l.axis) → ∀ (f : Fields k) (acc : List (Layer k)),
      let r := ls.foldl (fun s l => let r := adv l s.1; (r.1, s.2 ++ [r.2])) (f, acc)
      r.1.b = f.b ∧ r.1.j = f.j ∧
      (∃ ls', r.2 = acc ++ ls' ∧ List.Forall₂ (Layer.AfterE P dt ex n ng (cellsOf n ng f.b)) ls ls') ∧
      (∀ d v, Own n v → r.1.e d (index n ng v) = f.e d (index n ng v) +
        (ls.map fun l => l.addE P dt ex n ng (cellsOf n ng f.b) d v).sum) ∧
      (∀ d x, (∀ v, Own n v → index n ng v ≠ x) → r.1.e d x = f.e d x)
  | [], _, f, acc => ⟨rfl, rfl, ⟨[], by simp⟩, fun d v _ => by simp, fun _ _ _ => rfl⟩
  | l :: ls, h, f, acc => by
    have hs := hadv l f (h l (by simp))
    obtain ⟨i1, i2, ⟨ls', i3, i4⟩, i5, i6⟩ := layers_e n ng P dt ex adv hadv ls (fun l' hl' => h l' (by simp [hl'])) (adv l f).1 (acc ++ [(adv l f).2])
    dsimp only at i1 i2 i3 i4 i5 i6
    dsimp only
    rw [List.foldl_cons]
    rw [hs.src] at i1 i4 i5
    refine ⟨i1, i2.trans hs.j, ⟨(adv l f).2 :: ls', ?_, List.Forall₂.cons hs.layer i4⟩, ?_, ?_⟩
    · rw [i3]; simp
    · intro d v hv
      rw [i5 d v hv, hs.cells d v hv, List.map_cons, List.sum_cons]; ring
    · intro d x hx
      rw [i6 d x hx, hs.frame d x hx]


/-- one layer's step for B -/
structure StepB (P : Par k) (dt : ℚ) (ex : ℚ → ℚ) (n : Fin k → Nat) (ng : Nat) (l : Layer k) (f : Fields k) (r : Fields k × Layer k) : Prop where
  src : r.1.e = f.e
  j : r.1.j = f.j
  layer : l.AfterB P dt ex n ng (cellsOf n ng f.e) r.2
  cells : ∀ d v, Own n v → r.1.b d (index n ng v) = f.b d (index n ng v) + l.addB P dt ex n ng (cellsOf n ng f.e) d v
  frame : ∀ d x, (∀ v, Own n v → index n ng v ≠ x) → r.1.b d x = f.b d x

/-- `b psi + c difference` of the loop body -/
def newPsiB (P : Par k) (dt : ℚ) (ex : ℚ → ℚ) (n : Fin k → Nat) (ng : Nat) (A : Fin k) (kappa sigma a : Nat → ℚ) (b : Fin 3 → Arr k) (x : ℚ) (d : Fin 3)
    (u : Fin k → Nat) : ℚ :=
  ex (-(sigma (u A) / kappa (u A) + a (u A)) * dt) * x +
    ccoeff (ex (-(sigma (u A) / kappa (u A) + a (u A)) * dt)) (kappa (u A)) (sigma (u A)) (a (u A)) (P.d A) *
      diffE (cellsOf n ng b) A d fun a => u a

theorem advance_b (n : Fin k → Nat) (ng : Nat) (P : Par k) (dt : ℚ) (ex : ℚ → ℚ) (l : Layer k) (A : Fin k) (hA : l.axis = A)
    (body : Fields k × (Fin 3 → Arr k) → (Fin k → Nat) → Fields k × (Fin 3 → Arr k))
    (hbody : ∀ f ψ u, (body (f, ψ) u).1.e = f.e ∧ (body (f, ψ) u).1.j = f.j ∧ (body (f, ψ) u).2 (comp A) = ψ (comp A) ∧
      (body (f, ψ) u).1.b (comp A) = f.b (comp A) ∧
      ∀ d, d ≠ comp A →
        (body (f, ψ) u).2 d = put (ψ d) (index n ng fun a => u a)
          (newPsiB P dt ex n ng A l.kB l.sB l.aB f.e (ψ d (index n ng fun a => u a)) d u) ∧
        (body (f, ψ) u).1.b d = put (f.b d) (index n ng fun a => u a) (f.b d (index n ng fun a => u a) +
          -(curlSign d (comp A) * dt) * newPsiB P dt ex n ng A l.kB l.sB l.aB f.e (ψ d (index n ng fun a => u a)) d u))
    (L : List (Fin k → Nat)) (hmem : ∀ u, u ∈ L ↔ (∀ a, u a < n a) ∧ l.startB ≤ u A ∧ u A < l.stopB) (hnd : L.Nodup) (f : Fields k) :
    StepB P dt ex n ng l f ((L.foldl body (f, l.psiB)).1, { l with psiB := (L.foldl body (f, l.psiB)).2 }) := by
  subst hA
  obtain ⟨h1, h2, h3, h4, h5, h6⟩ := fold_pb n ng (comp l.axis) body _ _ hbody L (fun u hu => ((hmem u).mp hu).1) hnd f l.psiB
  have hin : ∀ v, Own n v → l.InB v → ∃ u ∈ L, v = fun a => (u a : Int) := by
    intro v hv hi
    obtain ⟨u, hu, rfl⟩ := own_nat hv
    refine ⟨u, (hmem u).mpr ⟨hu, ?_⟩, rfl⟩
    obtain ⟨i1, i2⟩ := hi
    dsimp only at i1 i2
    constructor <;> omega
  have hout : ∀ v, Own n v → ¬ l.InB v → ∀ u ∈ L, (index n ng fun a => (u a : Int)) ≠ index n ng v := by
    intro v hv hi u hu e
    obtain ⟨hu1, hu2, hu3⟩ := (hmem u).mp hu
    have ho : Own n fun a => (u a : Int) := fun a => by have := hu1 a; constructor <;> dsimp only <;> omega
    have := index_inj (ho.inRange ng) (hv.inRange ng) e
    apply hi
    rw [← this]
    unfold Layer.InB
    dsimp only
    constructor <;> omega
  have hp : ∀ d u, newPsiB P dt ex n ng l.axis l.kB l.sB l.aB f.e (l.psiB d (index n ng fun a => (u a : Int))) d u =
      l.psiB' P dt ex n ng (cellsOf n ng f.e) d fun a => (u a : Int) := fun d u => by
    unfold newPsiB Layer.psiB' Layer.bB
    dsimp only
    rw [Int.toNat_natCast]
  refine ⟨h1, h2, ⟨rfl, ?_, ?_⟩, ?_, ?_⟩
  · intro d hd v hv hi
    obtain ⟨u, hu, rfl⟩ := hin v hv hi
    exact (h5 d hd u hu).1.trans (hp d u)
  · intro d hd v hv hi
    exact (h6 d _ (hout v hv hi)).1
  · intro d v hv
    unfold Layer.addB
    dsimp only
    by_cases hi : l.InB v
    · rw [if_pos hi]
      obtain ⟨u, hu, rfl⟩ := hin v hv hi
      by_cases hd : d = comp l.axis
      · rw [hd, h4, csd]; ring
      · rw [(h5 d hd u hu).2, hp]; ring
    · rw [if_neg hi, (h6 d _ (hout v hv hi)).2, add_zero]
  · intro d x hx
    refine (h6 d x fun u hu => hx _ fun a => ?_).2
    have := ((hmem u).mp hu).1 a
    constructor <;> omega

/-- the layers of a patch one after the other -/
theorem layers_b (n : Fin k → Nat) (ng : Nat) (P : Par k) (dt : ℚ) (ex : ℚ → ℚ) (adv : Layer k → Fields k → Fields k × Layer k)
    (hadv : ∀ l f, l.stopB ≤ n l.axis → StepB P dt ex n ng l f (adv l f)) :
    ∀ (ls : List (Layer k)), (∀ l ∈ ls, l.stopB ≤ n l.axis) → ∀ (f : Fields k) (acc : List (Layer k)),
      let r := ls.foldl (fun s l => let r := adv l s.1; (r.1, s.2 ++ [r.2])) (f, acc)
      r.1.e = f.e ∧ r.1.j = f.j ∧
      (∃ ls', r.2 = acc ++ ls' ∧ List.Forall₂ (Layer.AfterB P dt ex n ng (cellsOf n ng f.e)) ls ls') ∧
      (∀ d v, Own n v → r.1.b d (index n ng v) = f.b d (index n ng v) +
        (ls.map fun l => l.addB P dt ex n ng (cellsOf n ng f.e) d v).sum) ∧
      (∀ d x, (∀ v, Own n v → index n ng v ≠ x) → r.1.b d x = f.b d x)
  | [], _, f, acc => ⟨rfl, rfl, ⟨[], by simp⟩, fun d v _ => by simp, fun _ _ _ => rfl⟩
  | l :: ls, h, f, acc => by
    have hs := hadv l f (h l (by simp))
    obtain ⟨i1, i2, ⟨ls', i3, i4⟩, i5, i6⟩ := layers_b n ng P dt ex adv hadv ls (fun l' hl' => h l' (by simp [hl'])) (adv l f).1 (acc ++ [(adv l f).2])
    dsimp only at i1 i2 i3 i4 i5 i6
    dsimp only
    rw [List.foldl_cons]
    rw [hs.src] at i1 i4 i5
    refine ⟨i1, i2.trans hs.j, ⟨(adv l f).2 :: ls', ?_, List.Forall₂.cons hs.layer i4⟩, ?_, ?_⟩
    · rw [i3]; simp
    · intro d v hv
      rw [i5 d v hv, hs.cells d v hv, List.map_cons, List.sum_cons]; ring
    · intro d x hx
      rw [i6 d x hx, hs.frame d x hx]


theorem kappaListE_nil : kappaListE ([] : List (Layer k)) = fun _ _ => 1 := rfl
theorem kappaListB_nil : kappaListB ([] : List (Layer k)) = fun _ _ => 1 := rfl

theorem mem_block2 (lo hi u : Fin 2 → Nat) : u ∈ block2 lo hi ↔ ∀ a, lo a ≤ u a ∧ u a < hi a := by
  unfold block2
  rw [List.mem_flatMap]
  constructor
  · rintro ⟨i, hi', h⟩ a
    obtain ⟨j, hj, rfl⟩ := List.mem_map.mp h
    rw [List.mem_range'_1] at hi' hj
    match a with
    | 0 => show lo 0 ≤ i ∧ i < hi 0; omega
    | 1 => show lo 1 ≤ j ∧ j < hi 1; omega
  · intro h
    have h0 := h 0
    have h1 := h 1
    refine ⟨u 0, by rw [List.mem_range'_1]; omega, List.mem_map.mpr ⟨u 1, by rw [List.mem_range'_1]; omega, ?_⟩⟩
    funext a
    match a with
    | 0 => rfl
    | 1 => rfl

theorem mem_block3 (lo hi u : Fin 3 → Nat) : u ∈ block3 lo hi ↔ ∀ a, lo a ≤ u a ∧ u a < hi a := by
  unfold block3
  rw [List.mem_flatMap]
  constructor
  · rintro ⟨i, hi', h⟩ a
    obtain ⟨j, hj, h⟩ := List.mem_flatMap.mp h
    obtain ⟨l, hl, rfl⟩ := List.mem_map.mp h
    rw [List.mem_range'_1] at hi' hj hl
    match a with
    | 0 => show lo 0 ≤ i ∧ i < hi 0; omega
    | 1 => show lo 1 ≤ j ∧ j < hi 1; omega
    | 2 => show lo 2 ≤ l ∧ l < hi 2; omega
  · intro h
    have h0 := h 0
    have h1 := h 1
    have h2 := h 2
    refine ⟨u 0, by rw [List.mem_range'_1]; omega, List.mem_flatMap.mpr ⟨u 1, by rw [List.mem_range'_1]; omega,
      List.mem_map.mpr ⟨u 2, by rw [List.mem_range'_1]; omega, ?_⟩⟩⟩
    funext a
    match a with
    | 0 => rfl
    | 1 => rfl
    | 2 => rfl

theorem nodup_block2 (lo hi : Fin 2 → Nat) : (block2 lo hi).Nodup := by
  unfold block2
  rw [List.nodup_flatMap]
  refine ⟨fun i _ => List.Nodup.map (fun j j' e => by simpa using congrFun e 1) List.nodup_range', ?_⟩
  refine List.Pairwise.imp (fun {i i'} hne => ?_) (List.nodup_range' (s := lo 0) (n := hi 0 - lo 0))
  intro u h h'
  obtain ⟨j, _, rfl⟩ := List.mem_map.mp h
  obtain ⟨j', _, e⟩ := List.mem_map.mp h'
  exact hne (by simpa using (congrFun e 0).symm)

theorem nodup_block3 (lo hi : Fin 3 → Nat) : (block3 lo hi).Nodup := by
  unfold block3
  rw [List.nodup_flatMap]
  refine ⟨fun i _ => ?_, ?_⟩
  · rw [List.nodup_flatMap]
    refine ⟨fun j _ => List.Nodup.map (fun l l' e => by simpa using congrFun e 2) List.nodup_range', ?_⟩
    refine List.Pairwise.imp (fun {j j'} hne => ?_) (List.nodup_range' (s := lo 1) (n := hi 1 - lo 1))
    intro u h h'
    obtain ⟨l, _, rfl⟩ := List.mem_map.mp h
    obtain ⟨l', _, e⟩ := List.mem_map.mp h'
    exact hne (by simpa using (congrFun e 1).symm)
  · refine List.Pairwise.imp (fun {i i'} hne => ?_) (List.nodup_range' (s := lo 0) (n := hi 0 - lo 0))
    intro u h h'
    obtain ⟨j, _, h⟩ := List.mem_flatMap.mp h
    obtain ⟨l, _, rfl⟩ := List.mem_map.mp h
    obtain ⟨j', _, h'⟩ := List.mem_flatMap.mp h'
    obtain ⟨l', _, e⟩ := List.mem_map.mp h'
    exact hne (by simpa using (congrFun e 0).symm)

theorem advanceE2_step (nx ny ng : Nat) (P : Par 2) (dt : ℚ) (ex : ℚ → ℚ) (l : Layer 2) (f : Fields 2) (h : l.stopE ≤ ![nx, ny] l.axis) :
    StepE P dt ex ![nx, ny] ng l f (advanceE2 nx ny ng P dt ex l f) := by
  match hA : l.axis with
  | 0 =>
    have hm : ∀ u, u ∈ block2 ![l.startE, 0] ![l.stopE, ny] ↔ (∀ a, u a < ![nx, ny] a) ∧ l.startE ≤ u 0 ∧ u 0 < l.stopE := by
      intro u
      rw [mem_block2]
      rw [hA] at h
      have h' : l.stopE ≤ nx := h
      constructor
      · intro hu
        refine ⟨fun b => ?_, hu 0⟩
        match b with
        | 0 => exact lt_of_lt_of_le (hu 0).2 h'
        | 1 => exact (hu 1).2
      · rintro ⟨hu, hs⟩ b
        match b with
        | 0 => exact hs
        | 1 => exact ⟨Nat.zero_le _, hu 1⟩
    have hr : advanceE2 nx ny ng P dt ex l f = (((block2 ![l.startE, 0] ![l.stopE, ny]).foldl (psiXE2 nx ny ng P dt ex l.kE l.sE l.aE) (f, l.psiE)).1,
        { l with psiE := ((block2 ![l.startE, 0] ![l.stopE, ny]).foldl (psiXE2 nx ny ng P dt ex l.kE l.sE l.aE) (f, l.psiE)).2 }) := by
      unfold advanceE2
      rw [if_pos hA]
    rw [hr]
    exact advance_e ![nx, ny] ng P dt ex l 0 hA (psiXE2 nx ny ng P dt ex l.kE l.sE l.aE)
      (psiXE2_form nx ny ng P dt ex l.kE l.sE l.aE) _ hm (nodup_block2 _ _) f
  | 1 =>
    have hm : ∀ u, u ∈ block2 ![0, l.startE] ![nx, l.stopE] ↔ (∀ a, u a < ![nx, ny] a) ∧ l.startE ≤ u 1 ∧ u 1 < l.stopE := by
      intro u
      rw [mem_block2]
      rw [hA] at h
      have h' : l.stopE ≤ ny := h
      constructor
      · intro hu
        refine ⟨fun b => ?_, hu 1⟩
        match b with
        | 0 => exact (hu 0).2
        | 1 => exact lt_of_lt_of_le (hu 1).2 h'
      · rintro ⟨hu, hs⟩ b
        match b with
        | 0 => exact ⟨Nat.zero_le _, hu 0⟩
        | 1 => exact hs
    have hr : advanceE2 nx ny ng P dt ex l f = (((block2 ![0, l.startE] ![nx, l.stopE]).foldl (psiYE2 nx ny ng P dt ex l.kE l.sE l.aE) (f, l.psiE)).1,
        { l with psiE := ((block2 ![0, l.startE] ![nx, l.stopE]).foldl (psiYE2 nx ny ng P dt ex l.kE l.sE l.aE) (f, l.psiE)).2 }) := by
      unfold advanceE2
      rw [if_neg (by rw [hA]; decide)]
    rw [hr]
    exact advance_e ![nx, ny] ng P dt ex l 1 hA (psiYE2 nx ny ng P dt ex l.kE l.sE l.aE)
      (psiYE2_form nx ny ng P dt ex l.kE l.sE l.aE) _ hm (nodup_block2 _ _) f

theorem stretchE2_one (P : Par 2) (dt : ℚ) (κ : Fin 2 → Nat → ℚ) (b j : V3 2) (d : Fin 3) (v : Fin 2 → Int) (h : ∀ a, κ a (v a).toNat = 1) :
    stretchE P dt κ b j d v = yeeE2 P dt b j d v := by
  unfold stretchE
  rw [Fin.sum_univ_two]
  simp only [h, div_one]
  match d with
  | 0 =>
    have hs0 : curlSign 0 (comp (0 : Fin 2)) = 0 := rfl
    have hs1 : curlSign 0 (comp (1 : Fin 2)) = 1 := rfl
    have hD1 : diffB b (1 : Fin 2) 0 v = b 2 v - b 2 (dn 1 v) := rfl
    have hy : yeeE2 P dt b j 0 v = dt * P.c2 * ((b 2 v - b 2 (dn 1 v)) / P.d 1) - dt / P.eps0 * j 0 v := rfl
    rw [hy, hs0, hs1, hD1]
    ring
  | 1 =>
    have hs0 : curlSign 1 (comp (0 : Fin 2)) = -1 := rfl
    have hD0 : diffB b (0 : Fin 2) 1 v = b 2 v - b 2 (dn 0 v) := rfl
    have hs1 : curlSign 1 (comp (1 : Fin 2)) = 0 := rfl
    have hy : yeeE2 P dt b j 1 v = dt * P.c2 * (-(b 2 v - b 2 (dn 0 v)) / P.d 0) - dt / P.eps0 * j 1 v := rfl
    rw [hy, hs0, hD0, hs1]
    ring
  | 2 =>
    have hs0 : curlSign 2 (comp (0 : Fin 2)) = 1 := rfl
    have hD0 : diffB b (0 : Fin 2) 2 v = b 1 v - b 1 (dn 0 v) := rfl
    have hs1 : curlSign 2 (comp (1 : Fin 2)) = -1 := rfl
    have hD1 : diffB b (1 : Fin 2) 2 v = b 0 v - b 0 (dn 1 v) := rfl
    have hy : yeeE2 P dt b j 2 v = dt * P.c2 * ((b 1 v - b 1 (dn 0 v)) / P.d 0 - (b 0 v - b 0 (dn 1 v)) / P.d 1) - dt / P.eps0 * j 2 v := rfl
    rw [hy, hs0, hD0, hs1, hD1]
    ring

theorem solverE2_spec (nx ny ng : Nat) (P : Par 2) (dt : ℚ) (ex : ℚ → ℚ) (ls : List (Layer 2)) (f : Fields 2) (h : ∀ l ∈ ls, l.stopE ≤ ![nx, ny] l.axis) :
    SolvedE P dt ex ![nx, ny] ng (kappaListE ls) ls f (solverE2 nx ny ng P dt ex ls f) := by
  have hb : ∀ u ∈ cells2 ![nx, ny], ∀ a, u a < ![nx, ny] a := fun u hu => (mem_cells2 _ _).mp hu
  have hfr : ∀ x, (∀ v, Own ![nx, ny] v → index ![nx, ny] ng v ≠ x) → ∀ u ∈ cells2 ![nx, ny], (index ![nx, ny] ng fun a => (u a : Int)) ≠ x := fun x hx u hu =>
    hx _ fun a => by have := hb u hu a; constructor <;> omega
  unfold solverE2
  by_cases hnil : ls = []
  · rw [if_pos hnil]
    subst hnil
    obtain ⟨h1, h2, h3, h4⟩ := fold_e ![nx, ny] ng (eBody2 nx ny ng P dt) (fun b j d u => yeeE2 P dt (cellsOf ![nx, ny] ng b) (cellsOf ![nx, ny] ng j) d fun a => u a) (eBody2_form nx ny ng P dt) _ hb (nodup_cells2 _) f
    refine ⟨h1, h2, ?_, fun d x hx => h4 d x (hfr x hx), List.Forall₂.nil⟩
    intro d v hv
    rw [kappaListE_nil, stretchE2_one _ _ _ _ _ _ _ (fun _ => rfl)]
    obtain ⟨u, hu, rfl⟩ := own_nat hv
    refine (h3 d u ((mem_cells2 _ _).mpr hu)).trans ?_
    simp
  · rw [if_neg hnil]
    obtain ⟨h1, h2, h3, h4⟩ := fold_e ![nx, ny] ng (eCpml2 nx ny ng P dt (kappaListE ls 0) (kappaListE ls 1)) (fun b j d u => stretchE P dt ![kappaListE ls 0, kappaListE ls 1] (cellsOf ![nx, ny] ng b) (cellsOf ![nx, ny] ng j) d fun a => u a) (eCpml2_form nx ny ng P dt (kappaListE ls 0) (kappaListE ls 1)) _ hb (nodup_cells2 _) f
    have hk : ![kappaListE ls 0, kappaListE ls 1] = kappaListE ls := by
      funext a
      match a with
      | 0 => rfl
      | 1 => rfl
    rw [hk] at h3
    obtain ⟨i1, i2, ⟨ls', i3, i4⟩, i5, i6⟩ := layers_e ![nx, ny] ng P dt ex (advanceE2 nx ny ng P dt ex)
      (fun l f hl => advanceE2_step nx ny ng P dt ex l f hl) ls h (updateEc2 nx ny ng P dt (kappaListE ls 0) (kappaListE ls 1) f) []
    have g1 : (updateEc2 nx ny ng P dt (kappaListE ls 0) (kappaListE ls 1) f).b = f.b := h1
    have g2 : (updateEc2 nx ny ng P dt (kappaListE ls 0) (kappaListE ls 1) f).j = f.j := h2
    rw [g1] at i1 i4 i5
    refine ⟨i1, i2.trans g2, ?_, ?_, ?_⟩
    · intro d v hv
      refine (i5 d v hv).trans ?_
      congr 1
      obtain ⟨u, hu, rfl⟩ := own_nat hv
      exact h3 d u ((mem_cells2 _ _).mpr hu)
    · intro d x hx
      exact (i6 d x hx).trans (h4 d x (hfr x hx))
    · dsimp only at i3
      rw [i3]
      exact i4

theorem advanceB2_step (nx ny ng : Nat) (P : Par 2) (dt : ℚ) (ex : ℚ → ℚ) (l : Layer 2) (f : Fields 2) (h : l.stopB ≤ ![nx, ny] l.axis) :
    StepB P dt ex ![nx, ny] ng l f (advanceB2 nx ny ng P dt ex l f) := by
  match hA : l.axis with
  | 0 =>
    have hm : ∀ u, u ∈ block2 ![l.startB, 0] ![l.stopB, ny] ↔ (∀ a, u a < ![nx, ny] a) ∧ l.startB ≤ u 0 ∧ u 0 < l.stopB := by
      intro u
      rw [mem_block2]
      rw [hA] at h
      have h' : l.stopB ≤ nx := h
      constructor
      · intro hu
        refine ⟨fun b => ?_, hu 0⟩
        match b with
        | 0 => exact lt_of_lt_of_le (hu 0).2 h'
        | 1 => exact (hu 1).2
      · rintro ⟨hu, hs⟩ b
        match b with
        | 0 => exact hs
        | 1 => exact ⟨Nat.zero_le _, hu 1⟩
    have hr : advanceB2 nx ny ng P dt ex l f = (((block2 ![l.startB, 0] ![l.stopB, ny]).foldl (psiXB2 nx ny ng P dt ex l.kB l.sB l.aB) (f, l.psiB)).1,
        { l with psiB := ((block2 ![l.startB, 0] ![l.stopB, ny]).foldl (psiXB2 nx ny ng P dt ex l.kB l.sB l.aB) (f, l.psiB)).2 }) := by
      unfold advanceB2
      rw [if_pos hA]
    rw [hr]
    exact advance_b ![nx, ny] ng P dt ex l 0 hA (psiXB2 nx ny ng P dt ex l.kB l.sB l.aB)
      (psiXB2_form nx ny ng P dt ex l.kB l.sB l.aB) _ hm (nodup_block2 _ _) f
  | 1 =>
    have hm : ∀ u, u ∈ block2 ![0, l.startB] ![nx, l.stopB] ↔ (∀ a, u a < ![nx, ny] a) ∧ l.startB ≤ u 1 ∧ u 1 < l.stopB := by
      intro u
      rw [mem_block2]
      rw [hA] at h
      have h' : l.stopB ≤ ny := h
      constructor
      · intro hu
        refine ⟨fun b => ?_, hu 1⟩
        match b with
        | 0 => exact (hu 0).2
        | 1 => exact lt_of_lt_of_le (hu 1).2 h'
      · rintro ⟨hu, hs⟩ b
        match b with
        | 0 => exact ⟨Nat.zero_le _, hu 0⟩
        | 1 => exact hs
    have hr : advanceB2 nx ny ng P dt ex l f = (((block2 ![0, l.startB] ![nx, l.stopB]).foldl (psiYB2 nx ny ng P dt ex l.kB l.sB l.aB) (f, l.psiB)).1,
        { l with psiB := ((block2 ![0, l.startB] ![nx, l.stopB]).foldl (psiYB2 nx ny ng P dt ex l.kB l.sB l.aB) (f, l.psiB)).2 }) := by
      unfold advanceB2
      rw [if_neg (by rw [hA]; decide)]
    rw [hr]
    exact advance_b ![nx, ny] ng P dt ex l 1 hA (psiYB2 nx ny ng P dt ex l.kB l.sB l.aB)
      (psiYB2_form nx ny ng P dt ex l.kB l.sB l.aB) _ hm (nodup_block2 _ _) f

theorem stretchB2_one (P : Par 2) (dt : ℚ) (κ : Fin 2 → Nat → ℚ) (b : V3 2) (d : Fin 3) (v : Fin 2 → Int) (h : ∀ a, κ a (v a).toNat = 1) :
    stretchB P dt κ b d v = yeeB2 P dt b d v := by
  unfold stretchB
  rw [Fin.sum_univ_two]
  simp only [h, div_one]
  match d with
  | 0 =>
    have hs0 : curlSign 0 (comp (0 : Fin 2)) = 0 := rfl
    have hs1 : curlSign 0 (comp (1 : Fin 2)) = 1 := rfl
    have hD1 : diffE b (1 : Fin 2) 0 v = b 2 (up 1 v) - b 2 v := rfl
    have hy : yeeB2 P dt b 0 v = -(dt * ((b 2 (up 1 v) - b 2 v) / P.d 1)) := rfl
    rw [hy, hs0, hs1, hD1]
    ring
  | 1 =>
    have hs0 : curlSign 1 (comp (0 : Fin 2)) = -1 := rfl
    have hD0 : diffE b (0 : Fin 2) 1 v = b 2 (up 0 v) - b 2 v := rfl
    have hs1 : curlSign 1 (comp (1 : Fin 2)) = 0 := rfl
    have hy : yeeB2 P dt b 1 v = -(dt * (-(b 2 (up 0 v) - b 2 v) / P.d 0)) := rfl
    rw [hy, hs0, hD0, hs1]
    ring
  | 2 =>
    have hs0 : curlSign 2 (comp (0 : Fin 2)) = 1 := rfl
    have hD0 : diffE b (0 : Fin 2) 2 v = b 1 (up 0 v) - b 1 v := rfl
    have hs1 : curlSign 2 (comp (1 : Fin 2)) = -1 := rfl
    have hD1 : diffE b (1 : Fin 2) 2 v = b 0 (up 1 v) - b 0 v := rfl
    have hy : yeeB2 P dt b 2 v = -(dt * ((b 1 (up 0 v) - b 1 v) / P.d 0 - (b 0 (up 1 v) - b 0 v) / P.d 1)) := rfl
    rw [hy, hs0, hD0, hs1, hD1]
    ring

theorem solverB2_spec (nx ny ng : Nat) (P : Par 2) (dt : ℚ) (ex : ℚ → ℚ) (ls : List (Layer 2)) (f : Fields 2) (h : ∀ l ∈ ls, l.stopB ≤ ![nx, ny] l.axis) :
    SolvedB P dt ex ![nx, ny] ng (kappaListB ls) ls f (solverB2 nx ny ng P dt ex ls f) := by
  have hb : ∀ u ∈ cells2 ![nx, ny], ∀ a, u a < ![nx, ny] a := fun u hu => (mem_cells2 _ _).mp hu
  have hfr : ∀ x, (∀ v, Own ![nx, ny] v → index ![nx, ny] ng v ≠ x) → ∀ u ∈ cells2 ![nx, ny], (index ![nx, ny] ng fun a => (u a : Int)) ≠ x := fun x hx u hu =>
    hx _ fun a => by have := hb u hu a; constructor <;> omega
  unfold solverB2
  by_cases hnil : ls = []
  · rw [if_pos hnil]
    subst hnil
    obtain ⟨h1, h2, h3, h4⟩ := fold_b ![nx, ny] ng (bBody2 nx ny ng P dt) (fun b d u => yeeB2 P dt (cellsOf ![nx, ny] ng b) d fun a => u a) (bBody2_form nx ny ng P dt) _ hb (nodup_cells2 _) f
    refine ⟨h1, h2, ?_, fun d x hx => h4 d x (hfr x hx), List.Forall₂.nil⟩
    intro d v hv
    rw [kappaListB_nil, stretchB2_one _ _ _ _ _ _ (fun _ => rfl)]
    obtain ⟨u, hu, rfl⟩ := own_nat hv
    refine (h3 d u ((mem_cells2 _ _).mpr hu)).trans ?_
    simp
  · rw [if_neg hnil]
    obtain ⟨h1, h2, h3, h4⟩ := fold_b ![nx, ny] ng (bCpml2 nx ny ng P dt (kappaListB ls 0) (kappaListB ls 1)) (fun b d u => stretchB P dt ![kappaListB ls 0, kappaListB ls 1] (cellsOf ![nx, ny] ng b) d fun a => u a) (bCpml2_form nx ny ng P dt (kappaListB ls 0) (kappaListB ls 1)) _ hb (nodup_cells2 _) f
    have hk : ![kappaListB ls 0, kappaListB ls 1] = kappaListB ls := by
      funext a
      match a with
      | 0 => rfl
      | 1 => rfl
    rw [hk] at h3
    obtain ⟨i1, i2, ⟨ls', i3, i4⟩, i5, i6⟩ := layers_b ![nx, ny] ng P dt ex (advanceB2 nx ny ng P dt ex)
      (fun l f hl => advanceB2_step nx ny ng P dt ex l f hl) ls h (updateBc2 nx ny ng P dt (kappaListB ls 0) (kappaListB ls 1) f) []
    have g1 : (updateBc2 nx ny ng P dt (kappaListB ls 0) (kappaListB ls 1) f).e = f.e := h1
    have g2 : (updateBc2 nx ny ng P dt (kappaListB ls 0) (kappaListB ls 1) f).j = f.j := h2
    rw [g1] at i1 i4 i5
    refine ⟨i1, i2.trans g2, ?_, ?_, ?_⟩
    · intro d v hv
      refine (i5 d v hv).trans ?_
      congr 1
      obtain ⟨u, hu, rfl⟩ := own_nat hv
      exact h3 d u ((mem_cells2 _ _).mpr hu)
    · intro d x hx
      exact (i6 d x hx).trans (h4 d x (hfr x hx))
    · dsimp only at i3
      rw [i3]
      exact i4

theorem advanceE3_step (nx ny nz ng : Nat) (P : Par 3) (dt : ℚ) (ex : ℚ → ℚ) (l : Layer 3) (f : Fields 3) (h : l.stopE ≤ ![nx, ny, nz] l.axis) :
    StepE P dt ex ![nx, ny, nz] ng l f (advanceE3 nx ny nz ng P dt ex l f) := by
  match hA : l.axis with
  | 0 =>
    have hm : ∀ u, u ∈ block3 ![l.startE, 0, 0] ![l.stopE, ny, nz] ↔ (∀ a, u a < ![nx, ny, nz] a) ∧ l.startE ≤ u 0 ∧ u 0 < l.stopE := by
      intro u
      rw [mem_block3]
      rw [hA] at h
      have h' : l.stopE ≤ nx := h
      constructor
      · intro hu
        refine ⟨fun b => ?_, hu 0⟩
        match b with
        | 0 => exact lt_of_lt_of_le (hu 0).2 h'
        | 1 => exact (hu 1).2
        | 2 => exact (hu 2).2
      · rintro ⟨hu, hs⟩ b
        match b with
        | 0 => exact hs
        | 1 => exact ⟨Nat.zero_le _, hu 1⟩
        | 2 => exact ⟨Nat.zero_le _, hu 2⟩
    have hr : advanceE3 nx ny nz ng P dt ex l f = (((block3 ![l.startE, 0, 0] ![l.stopE, ny, nz]).foldl (psiXE3 nx ny nz ng P dt ex l.kE l.sE l.aE) (f, l.psiE)).1,
        { l with psiE := ((block3 ![l.startE, 0, 0] ![l.stopE, ny, nz]).foldl (psiXE3 nx ny nz ng P dt ex l.kE l.sE l.aE) (f, l.psiE)).2 }) := by
      unfold advanceE3
      rw [if_pos hA]
    rw [hr]
    exact advance_e ![nx, ny, nz] ng P dt ex l 0 hA (psiXE3 nx ny nz ng P dt ex l.kE l.sE l.aE)
      (psiXE3_form nx ny nz ng P dt ex l.kE l.sE l.aE) _ hm (nodup_block3 _ _) f
  | 1 =>
    have hm : ∀ u, u ∈ block3 ![0, l.startE, 0] ![nx, l.stopE, nz] ↔ (∀ a, u a < ![nx, ny, nz] a) ∧ l.startE ≤ u 1 ∧ u 1 < l.stopE := by
      intro u
      rw [mem_block3]
      rw [hA] at h
      have h' : l.stopE ≤ ny := h
      constructor
      · intro hu
        refine ⟨fun b => ?_, hu 1⟩
        match b with
        | 0 => exact (hu 0).2
        | 1 => exact lt_of_lt_of_le (hu 1).2 h'
        | 2 => exact (hu 2).2
      · rintro ⟨hu, hs⟩ b
        match b with
        | 0 => exact ⟨Nat.zero_le _, hu 0⟩
        | 1 => exact hs
        | 2 => exact ⟨Nat.zero_le _, hu 2⟩
    have hr : advanceE3 nx ny nz ng P dt ex l f = (((block3 ![0, l.startE, 0] ![nx, l.stopE, nz]).foldl (psiYE3 nx ny nz ng P dt ex l.kE l.sE l.aE) (f, l.psiE)).1,
        { l with psiE := ((block3 ![0, l.startE, 0] ![nx, l.stopE, nz]).foldl (psiYE3 nx ny nz ng P dt ex l.kE l.sE l.aE) (f, l.psiE)).2 }) := by
      unfold advanceE3
      rw [if_neg (by rw [hA]; decide), if_pos hA]
    rw [hr]
    exact advance_e ![nx, ny, nz] ng P dt ex l 1 hA (psiYE3 nx ny nz ng P dt ex l.kE l.sE l.aE)
      (psiYE3_form nx ny nz ng P dt ex l.kE l.sE l.aE) _ hm (nodup_block3 _ _) f
  | 2 =>
    have hm : ∀ u, u ∈ block3 ![0, 0, l.startE] ![nx, ny, l.stopE] ↔ (∀ a, u a < ![nx, ny, nz] a) ∧ l.startE ≤ u 2 ∧ u 2 < l.stopE := by
      intro u
      rw [mem_block3]
      rw [hA] at h
      have h' : l.stopE ≤ nz := h
      constructor
      · intro hu
        refine ⟨fun b => ?_, hu 2⟩
        match b with
        | 0 => exact (hu 0).2
        | 1 => exact (hu 1).2
        | 2 => exact lt_of_lt_of_le (hu 2).2 h'
      · rintro ⟨hu, hs⟩ b
        match b with
        | 0 => exact ⟨Nat.zero_le _, hu 0⟩
        | 1 => exact ⟨Nat.zero_le _, hu 1⟩
        | 2 => exact hs
    have hr : advanceE3 nx ny nz ng P dt ex l f = (((block3 ![0, 0, l.startE] ![nx, ny, l.stopE]).foldl (psiZE3 nx ny nz ng P dt ex l.kE l.sE l.aE) (f, l.psiE)).1,
        { l with psiE := ((block3 ![0, 0, l.startE] ![nx, ny, l.stopE]).foldl (psiZE3 nx ny nz ng P dt ex l.kE l.sE l.aE) (f, l.psiE)).2 }) := by
      unfold advanceE3
      rw [if_neg (by rw [hA]; decide), if_neg (by rw [hA]; decide)]
    rw [hr]
    exact advance_e ![nx, ny, nz] ng P dt ex l 2 hA (psiZE3 nx ny nz ng P dt ex l.kE l.sE l.aE)
      (psiZE3_form nx ny nz ng P dt ex l.kE l.sE l.aE) _ hm (nodup_block3 _ _) f

theorem stretchE3_one (P : Par 3) (dt : ℚ) (κ : Fin 3 → Nat → ℚ) (b j : V3 3) (d : Fin 3) (v : Fin 3 → Int) (h : ∀ a, κ a (v a).toNat = 1) :
    stretchE P dt κ b j d v = yeeE3 P dt b j d v := by
  unfold stretchE
  rw [Fin.sum_univ_three]
  simp only [h, div_one]
  match d with
  | 0 =>
    have hs0 : curlSign 0 (comp (0 : Fin 3)) = 0 := rfl
    have hs1 : curlSign 0 (comp (1 : Fin 3)) = 1 := rfl
    have hD1 : diffB b (1 : Fin 3) 0 v = b 2 v - b 2 (dn 1 v) := rfl
    have hs2 : curlSign 0 (comp (2 : Fin 3)) = -1 := rfl
    have hD2 : diffB b (2 : Fin 3) 0 v = b 1 v - b 1 (dn 2 v) := rfl
    have hy : yeeE3 P dt b j 0 v = dt * P.c2 * ((b 2 v - b 2 (dn 1 v)) / P.d 1 - (b 1 v - b 1 (dn 2 v)) / P.d 2) - dt / P.eps0 * j 0 v := rfl
    rw [hy, hs0, hs1, hD1, hs2, hD2]
    ring
  | 1 =>
    have hs0 : curlSign 1 (comp (0 : Fin 3)) = -1 := rfl
    have hD0 : diffB b (0 : Fin 3) 1 v = b 2 v - b 2 (dn 0 v) := rfl
    have hs1 : curlSign 1 (comp (1 : Fin 3)) = 0 := rfl
    have hs2 : curlSign 1 (comp (2 : Fin 3)) = 1 := rfl
    have hD2 : diffB b (2 : Fin 3) 1 v = b 0 v - b 0 (dn 2 v) := rfl
    have hy : yeeE3 P dt b j 1 v = dt * P.c2 * ((b 0 v - b 0 (dn 2 v)) / P.d 2 - (b 2 v - b 2 (dn 0 v)) / P.d 0) - dt / P.eps0 * j 1 v := rfl
    rw [hy, hs0, hD0, hs1, hs2, hD2]
    ring
  | 2 =>
    have hs0 : curlSign 2 (comp (0 : Fin 3)) = 1 := rfl
    have hD0 : diffB b (0 : Fin 3) 2 v = b 1 v - b 1 (dn 0 v) := rfl
    have hs1 : curlSign 2 (comp (1 : Fin 3)) = -1 := rfl
    have hD1 : diffB b (1 : Fin 3) 2 v = b 0 v - b 0 (dn 1 v) := rfl
    have hs2 : curlSign 2 (comp (2 : Fin 3)) = 0 := rfl
    have hy : yeeE3 P dt b j 2 v = dt * P.c2 * ((b 1 v - b 1 (dn 0 v)) / P.d 0 - (b 0 v - b 0 (dn 1 v)) / P.d 1) - dt / P.eps0 * j 2 v := rfl
    rw [hy, hs0, hD0, hs1, hD1, hs2]
    ring

theorem solverE3_spec (nx ny nz ng : Nat) (P : Par 3) (dt : ℚ) (ex : ℚ → ℚ) (ls : List (Layer 3)) (f : Fields 3) (h : ∀ l ∈ ls, l.stopE ≤ ![nx, ny, nz] l.axis) :
    SolvedE P dt ex ![nx, ny, nz] ng (kappaListE ls) ls f (solverE3 nx ny nz ng P dt ex ls f) := by
  have hb : ∀ u ∈ cells3 ![nx, ny, nz], ∀ a, u a < ![nx, ny, nz] a := fun u hu => (mem_cells3 _ _).mp hu
  have hfr : ∀ x, (∀ v, Own ![nx, ny, nz] v → index ![nx, ny, nz] ng v ≠ x) → ∀ u ∈ cells3 ![nx, ny, nz], (index ![nx, ny, nz] ng fun a => (u a : Int)) ≠ x := fun x hx u hu =>
    hx _ fun a => by have := hb u hu a; constructor <;> omega
  unfold solverE3
  by_cases hnil : ls = []
  · rw [if_pos hnil]
    subst hnil
    obtain ⟨h1, h2, h3, h4⟩ := fold_e ![nx, ny, nz] ng (eBody3 nx ny nz ng P dt) (fun b j d u => yeeE3 P dt (cellsOf ![nx, ny, nz] ng b) (cellsOf ![nx, ny, nz] ng j) d fun a => u a) (eBody3_form nx ny nz ng P dt) _ hb (nodup_cells3 _) f
    refine ⟨h1, h2, ?_, fun d x hx => h4 d x (hfr x hx), List.Forall₂.nil⟩
    intro d v hv
    rw [kappaListE_nil, stretchE3_one _ _ _ _ _ _ _ (fun _ => rfl)]
    obtain ⟨u, hu, rfl⟩ := own_nat hv
    refine (h3 d u ((mem_cells3 _ _).mpr hu)).trans ?_
    simp
  · rw [if_neg hnil]
    obtain ⟨h1, h2, h3, h4⟩ := fold_e ![nx, ny, nz] ng (eCpml3 nx ny nz ng P dt (kappaListE ls 0) (kappaListE ls 1) (kappaListE ls 2)) (fun b j d u => stretchE P dt ![kappaListE ls 0, kappaListE ls 1, kappaListE ls 2] (cellsOf ![nx, ny, nz] ng b) (cellsOf ![nx, ny, nz] ng j) d fun a => u a) (eCpml3_form nx ny nz ng P dt (kappaListE ls 0) (kappaListE ls 1) (kappaListE ls 2)) _ hb (nodup_cells3 _) f
    have hk : ![kappaListE ls 0, kappaListE ls 1, kappaListE ls 2] = kappaListE ls := by
      funext a
      match a with
      | 0 => rfl
      | 1 => rfl
      | 2 => rfl
    rw [hk] at h3
    obtain ⟨i1, i2, ⟨ls', i3, i4⟩, i5, i6⟩ := layers_e ![nx, ny, nz] ng P dt ex (advanceE3 nx ny nz ng P dt ex)
      (fun l f hl => advanceE3_step nx ny nz ng P dt ex l f hl) ls h (updateEc3 nx ny nz ng P dt (kappaListE ls 0) (kappaListE ls 1) (kappaListE ls 2) f) []
    have g1 : (updateEc3 nx ny nz ng P dt (kappaListE ls 0) (kappaListE ls 1) (kappaListE ls 2) f).b = f.b := h1
    have g2 : (updateEc3 nx ny nz ng P dt (kappaListE ls 0) (kappaListE ls 1) (kappaListE ls 2) f).j = f.j := h2
    rw [g1] at i1 i4 i5
    refine ⟨i1, i2.trans g2, ?_, ?_, ?_⟩
    · intro d v hv
      refine (i5 d v hv).trans ?_
      congr 1
      obtain ⟨u, hu, rfl⟩ := own_nat hv
      exact h3 d u ((mem_cells3 _ _).mpr hu)
    · intro d x hx
      exact (i6 d x hx).trans (h4 d x (hfr x hx))
    · dsimp only at i3
      rw [i3]
      exact i4

theorem advanceB3_step (nx ny nz ng : Nat) (P : Par 3) (dt : ℚ) (ex : ℚ → ℚ) (l : Layer 3) (f : Fields 3) (h : l.stopB ≤ ![nx, ny, nz] l.axis) :
    StepB P dt ex ![nx, ny, nz] ng l f (advanceB3 nx ny nz ng P dt ex l f) := by
  match hA : l.axis with
  | 0 =>
    have hm : ∀ u, u ∈ block3 ![l.startB, 0, 0] ![l.stopB, ny, nz] ↔ (∀ a, u a < ![nx, ny, nz] a) ∧ l.startB ≤ u 0 ∧ u 0 < l.stopB := by
      intro u
      rw [mem_block3]
      rw [hA] at h
      have h' : l.stopB ≤ nx := h
      constructor
      · intro hu
        refine ⟨fun b => ?_, hu 0⟩
        match b with
        | 0 => exact lt_of_lt_of_le (hu 0).2 h'
        | 1 => exact (hu 1).2
        | 2 => exact (hu 2).2
      · rintro ⟨hu, hs⟩ b
        match b with
        | 0 => exact hs
        | 1 => exact ⟨Nat.zero_le _, hu 1⟩
        | 2 => exact ⟨Nat.zero_le _, hu 2⟩
    have hr : advanceB3 nx ny nz ng P dt ex l f = (((block3 ![l.startB, 0, 0] ![l.stopB, ny, nz]).foldl (psiXB3 nx ny nz ng P dt ex l.kB l.sB l.aB) (f, l.psiB)).1,
        { l with psiB := ((block3 ![l.startB, 0, 0] ![l.stopB, ny, nz]).foldl (psiXB3 nx ny nz ng P dt ex l.kB l.sB l.aB) (f, l.psiB)).2 }) := by
      unfold advanceB3
      rw [if_pos hA]
    rw [hr]
    exact advance_b ![nx, ny, nz] ng P dt ex l 0 hA (psiXB3 nx ny nz ng P dt ex l.kB l.sB l.aB)
      (psiXB3_form nx ny nz ng P dt ex l.kB l.sB l.aB) _ hm (nodup_block3 _ _) f
  | 1 =>
    have hm : ∀ u, u ∈ block3 ![0, l.startB, 0] ![nx, l.stopB, nz] ↔ (∀ a, u a < ![nx, ny, nz] a) ∧ l.startB ≤ u 1 ∧ u 1 < l.stopB := by
      intro u
      rw [mem_block3]
      rw [hA] at h
      have h' : l.stopB ≤ ny := h
      constructor
      · intro hu
        refine ⟨fun b => ?_, hu 1⟩
        match b with
        | 0 => exact (hu 0).2
        | 1 => exact lt_of_lt_of_le (hu 1).2 h'
        | 2 => exact (hu 2).2
      · rintro ⟨hu, hs⟩ b
        match b with
        | 0 => exact ⟨Nat.zero_le _, hu 0⟩
        | 1 => exact hs
        | 2 => exact ⟨Nat.zero_le _, hu 2⟩
    have hr : advanceB3 nx ny nz ng P dt ex l f = (((block3 ![0, l.startB, 0] ![nx, l.stopB, nz]).foldl (psiYB3 nx ny nz ng P dt ex l.kB l.sB l.aB) (f, l.psiB)).1,
        { l with psiB := ((block3 ![0, l.startB, 0] ![nx, l.stopB, nz]).foldl (psiYB3 nx ny nz ng P dt ex l.kB l.sB l.aB) (f, l.psiB)).2 }) := by
      unfold advanceB3
      rw [if_neg (by rw [hA]; decide), if_pos hA]
    rw [hr]
    exact advance_b ![nx, ny, nz] ng P dt ex l 1 hA (psiYB3 nx ny nz ng P dt ex l.kB l.sB l.aB)
      (psiYB3_form nx ny nz ng P dt ex l.kB l.sB l.aB) _ hm (nodup_block3 _ _) f
  | 2 =>
    have hm : ∀ u, u ∈ block3 ![0, 0, l.startB] ![nx, ny, l.stopB] ↔ (∀ a, u a < ![nx, ny, nz] a) ∧ l.startB ≤ u 2 ∧ u 2 < l.stopB := by
      intro u
      rw [mem_block3]
      rw [hA] at h
      have h' : l.stopB ≤ nz := h
      constructor
      · intro hu
        refine ⟨fun b => ?_, hu 2⟩
        match b with
        | 0 => exact (hu 0).2
        | 1 => exact (hu 1).2
        | 2 => exact lt_of_lt_of_le (hu 2).2 h'
      · rintro ⟨hu, hs⟩ b
        match b with
        | 0 => exact ⟨Nat.zero_le _, hu 0⟩
        | 1 => exact ⟨Nat.zero_le _, hu 1⟩
        | 2 => exact hs
    have hr : advanceB3 nx ny nz ng P dt ex l f = (((block3 ![0, 0, l.startB] ![nx, ny, l.stopB]).foldl (psiZB3 nx ny nz ng P dt ex l.kB l.sB l.aB) (f, l.psiB)).1,
        { l with psiB := ((block3 ![0, 0, l.startB] ![nx, ny, l.stopB]).foldl (psiZB3 nx ny nz ng P dt ex l.kB l.sB l.aB) (f, l.psiB)).2 }) := by
      unfold advanceB3
      rw [if_neg (by rw [hA]; decide), if_neg (by rw [hA]; decide)]
    rw [hr]
    exact advance_b ![nx, ny, nz] ng P dt ex l 2 hA (psiZB3 nx ny nz ng P dt ex l.kB l.sB l.aB)
      (psiZB3_form nx ny nz ng P dt ex l.kB l.sB l.aB) _ hm (nodup_block3 _ _) f

theorem stretchB3_one (P : Par 3) (dt : ℚ) (κ : Fin 3 → Nat → ℚ) (b : V3 3) (d : Fin 3) (v : Fin 3 → Int) (h : ∀ a, κ a (v a).toNat = 1) :
    stretchB P dt κ b d v = yeeB3 P dt b d v := by
  unfold stretchB
  rw [Fin.sum_univ_three]
  simp only [h, div_one]
  match d with
  | 0 =>
    have hs0 : curlSign 0 (comp (0 : Fin 3)) = 0 := rfl
    have hs1 : curlSign 0 (comp (1 : Fin 3)) = 1 := rfl
    have hD1 : diffE b (1 : Fin 3) 0 v = b 2 (up 1 v) - b 2 v := rfl
    have hs2 : curlSign 0 (comp (2 : Fin 3)) = -1 := rfl
    have hD2 : diffE b (2 : Fin 3) 0 v = b 1 (up 2 v) - b 1 v := rfl
    have hy : yeeB3 P dt b 0 v = -(dt * ((b 2 (up 1 v) - b 2 v) / P.d 1 - (b 1 (up 2 v) - b 1 v) / P.d 2)) := rfl
    rw [hy, hs0, hs1, hD1, hs2, hD2]
    ring
  | 1 =>
    have hs0 : curlSign 1 (comp (0 : Fin 3)) = -1 := rfl
    have hD0 : diffE b (0 : Fin 3) 1 v = b 2 (up 0 v) - b 2 v := rfl
    have hs1 : curlSign 1 (comp (1 : Fin 3)) = 0 := rfl
    have hs2 : curlSign 1 (comp (2 : Fin 3)) = 1 := rfl
    have hD2 : diffE b (2 : Fin 3) 1 v = b 0 (up 2 v) - b 0 v := rfl
    have hy : yeeB3 P dt b 1 v = -(dt * ((b 0 (up 2 v) - b 0 v) / P.d 2 - (b 2 (up 0 v) - b 2 v) / P.d 0)) := rfl
    rw [hy, hs0, hD0, hs1, hs2, hD2]
    ring
  | 2 =>
    have hs0 : curlSign 2 (comp (0 : Fin 3)) = 1 := rfl
    have hD0 : diffE b (0 : Fin 3) 2 v = b 1 (up 0 v) - b 1 v := rfl
    have hs1 : curlSign 2 (comp (1 : Fin 3)) = -1 := rfl
    have hD1 : diffE b (1 : Fin 3) 2 v = b 0 (up 1 v) - b 0 v := rfl
    have hs2 : curlSign 2 (comp (2 : Fin 3)) = 0 := rfl
    have hy : yeeB3 P dt b 2 v = -(dt * ((b 1 (up 0 v) - b 1 v) / P.d 0 - (b 0 (up 1 v) - b 0 v) / P.d 1)) := rfl
    rw [hy, hs0, hD0, hs1, hD1, hs2]
    ring

theorem solverB3_spec (nx ny nz ng : Nat) (P : Par 3) (dt : ℚ) (ex : ℚ → ℚ) (ls : List (Layer 3)) (f : Fields 3) (h : ∀ l ∈ ls, l.stopB ≤ ![nx, ny, nz] l.axis) :
    SolvedB P dt ex ![nx, ny, nz] ng (kappaListB ls) ls f (solverB3 nx ny nz ng P dt ex ls f) := by
  have hb : ∀ u ∈ cells3 ![nx, ny, nz], ∀ a, u a < ![nx, ny, nz] a := fun u hu => (mem_cells3 _ _).mp hu
  have hfr : ∀ x, (∀ v, Own ![nx, ny, nz] v → index ![nx, ny, nz] ng v ≠ x) → ∀ u ∈ cells3 ![nx, ny, nz], (index ![nx, ny, nz] ng fun a => (u a : Int)) ≠ x := fun x hx u hu =>
    hx _ fun a => by have := hb u hu a; constructor <;> omega
  unfold solverB3
  by_cases hnil : ls = []
  · rw [if_pos hnil]
    subst hnil
    obtain ⟨h1, h2, h3, h4⟩ := fold_b ![nx, ny, nz] ng (bBody3 nx ny nz ng P dt) (fun b d u => yeeB3 P dt (cellsOf ![nx, ny, nz] ng b) d fun a => u a) (bBody3_form nx ny nz ng P dt) _ hb (nodup_cells3 _) f
    refine ⟨h1, h2, ?_, fun d x hx => h4 d x (hfr x hx), List.Forall₂.nil⟩
    intro d v hv
    rw [kappaListB_nil, stretchB3_one _ _ _ _ _ _ (fun _ => rfl)]
    obtain ⟨u, hu, rfl⟩ := own_nat hv
    refine (h3 d u ((mem_cells3 _ _).mpr hu)).trans ?_
    simp
  · rw [if_neg hnil]
    obtain ⟨h1, h2, h3, h4⟩ := fold_b ![nx, ny, nz] ng (bCpml3 nx ny nz ng P dt (kappaListB ls 0) (kappaListB ls 1) (kappaListB ls 2)) (fun b d u => stretchB P dt ![kappaListB ls 0, kappaListB ls 1, kappaListB ls 2] (cellsOf ![nx, ny, nz] ng b) d fun a => u a) (bCpml3_form nx ny nz ng P dt (kappaListB ls 0) (kappaListB ls 1) (kappaListB ls 2)) _ hb (nodup_cells3 _) f
    have hk : ![kappaListB ls 0, kappaListB ls 1, kappaListB ls 2] = kappaListB ls := by
      funext a
      match a with
      | 0 => rfl
      | 1 => rfl
      | 2 => rfl
    rw [hk] at h3
    obtain ⟨i1, i2, ⟨ls', i3, i4⟩, i5, i6⟩ := layers_b ![nx, ny, nz] ng P dt ex (advanceB3 nx ny nz ng P dt ex)
      (fun l f hl => advanceB3_step nx ny nz ng P dt ex l f hl) ls h (updateBc3 nx ny nz ng P dt (kappaListB ls 0) (kappaListB ls 1) (kappaListB ls 2) f) []
    have g1 : (updateBc3 nx ny nz ng P dt (kappaListB ls 0) (kappaListB ls 1) (kappaListB ls 2) f).e = f.e := h1
    have g2 : (updateBc3 nx ny nz ng P dt (kappaListB ls 0) (kappaListB ls 1) (kappaListB ls 2) f).j = f.j := h2
    rw [g1] at i1 i4 i5
    refine ⟨i1, i2.trans g2, ?_, ?_, ?_⟩
    · intro d v hv
      refine (i5 d v hv).trans ?_
      congr 1
      obtain ⟨u, hu, rfl⟩ := own_nat hv
      exact h3 d u ((mem_cells3 _ _).mpr hu)
    · intro d x hx
      exact (i6 d x hx).trans (h4 d x (hfr x hx))
    · dsimp only at i3
      rw [i3]
      exact i4

end Verif.Cpml
