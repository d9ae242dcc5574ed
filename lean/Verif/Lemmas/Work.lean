import Verif.Model.Work
import Verif.Props.Steps
import Mathlib.Tactic.Ring
import Mathlib.Tactic.Linarith

/-!
# Counted executions: forgetting the counter, and bounds on it
-/

namespace AesiMP
open Aeu

namespace Counted
variable {α β σ ρ : Type}

@[simp] theorem run_pure (a : α) : (pure a : Counted α).run = .ok a := rfl
@[simp] theorem run_lift (e : Exec α) : (lift e).run = e := rfl
@[simp] theorem run_rd {n : Nat} (b : Vector α n) (i : Nat) : (rd b i).run = AesiMP.rd b i := rfl
@[simp] theorem run_wr {n : Nat} (b : Vector α n) (i : Nat) (v : α) : (wr b i v).run = AesiMP.wr b i v := rfl
@[simp] theorem run_bind (x : Counted α) (f : α → Counted β) :
    (x >>= f).run = x.run >>= fun a => (f a).run := by
  show (Counted.bind x f).run = _
  unfold Counted.bind
  cases x.run <;> rfl
@[simp] theorem run_ite {c : Prop} [Decidable c] (x y : Counted α) :
    (if c then x else y).run = if c then x.run else y.run := by split <;> rfl

theorem run_forUp {lo hi : Nat} {s : σ} {body : Nat → σ → Counted σ} {body' : Nat → σ → Exec σ}
    (h : ∀ i s, (body i s).run = body' i s) : (forUp lo hi s body).run = AesiMP.forUp lo hi s body' := by
  unfold forUp AesiMP.forUp
  generalize hi - lo = k
  induction k generalizing lo s with
  | zero => rfl
  | succ k ih =>
    simp only [forUpN, AesiMP.forUpN, run_bind, h]
    congr 1; funext s'; exact ih

theorem run_forUpC {lo hi : Nat} {s : σ} {body : Nat → σ → Counted (Ctl σ ρ)}
    {body' : Nat → σ → Exec (Ctl σ ρ)}
    (h : ∀ i s, (body i s).run = body' i s) : (forUpC lo hi s body).run = AesiMP.forUpC lo hi s body' := by
  unfold forUpC AesiMP.forUpC
  generalize hi - lo = k
  induction k generalizing lo s with
  | zero => rfl
  | succ k ih =>
    simp only [forUpCN, AesiMP.forUpCN, run_bind, h]
    congr 1; funext c
    cases c with
    | next s' => exact ih
    | leave r => rfl

theorem run_forDown {lo hi : Nat} {s : σ} {body : Nat → σ → Counted σ} {body' : Nat → σ → Exec σ}
    (h : ∀ i s, (body i s).run = body' i s) : (forDown hi lo s body).run = AesiMP.forDown hi lo s body' := by
  unfold forDown AesiMP.forDown
  generalize hi - lo = k
  induction k generalizing s with
  | zero => rfl
  | succ k ih =>
    simp only [forDownN, AesiMP.forDownN, run_bind, h]
    congr 1; funext s'; exact ih

theorem run_forDownC {lo hi : Nat} {s : σ} {body : Nat → σ → Counted (Ctl σ ρ)}
    {body' : Nat → σ → Exec (Ctl σ ρ)}
    (h : ∀ i s, (body i s).run = body' i s) : (forDownC hi lo s body).run = AesiMP.forDownC hi lo s body' := by
  unfold forDownC AesiMP.forDownC
  generalize hi - lo = k
  induction k generalizing s with
  | zero => rfl
  | succ k ih =>
    simp only [forDownCN, AesiMP.forDownCN, run_bind, h]
    congr 1; funext c
    cases c with
    | next s' => exact ih
    | leave r => rfl

theorem run_whileC {fuel : Nat} {s : σ} {body : σ → Counted (Ctl σ ρ)} {body' : σ → Exec (Ctl σ ρ)}
    (h : ∀ s, (body s).run = body' s) : (whileC fuel s body).run = AesiMP.whileC fuel s body' := by
  induction fuel generalizing s with
  | zero => rfl
  | succ k ih =>
    simp only [whileC, AesiMP.whileC, run_bind, h]
    congr 1; funext c
    cases c with
    | next s' => exact ih
    | leave r => rfl

/-! ### Bounds -/

/-- At most `k` accesses. -/
def Within (x : Counted α) (k : Nat) : Prop := x.accesses ≤ k

theorem Within.mono {x : Counted α} {j k : Nat} (h : Within x j) (hjk : j ≤ k) : Within x k := le_trans h hjk
theorem Within.pure (a : α) : Within (pure a : Counted α) 0 := le_refl 0
theorem Within.lift (e : Exec α) : Within (lift e) 0 := le_refl 0
theorem Within.rd {n : Nat} (b : Vector α n) (i : Nat) : Within (rd b i) 1 := le_refl 1
theorem Within.wr {n : Nat} (b : Vector α n) (i : Nat) (v : α) : Within (wr b i v) 1 := le_refl 1

theorem Within.bind {x : Counted α} {f : α → Counted β} {j k : Nat} (hx : Within x j)
    (hf : ∀ a, x.run = .ok a → Within (f a) k) : Within (x >>= f) (j + k) := by
  show (Counted.bind x f).accesses ≤ _
  unfold Counted.bind
  unfold Within at hx
  split
  · rename_i a ha
    have := hf a ha
    unfold Within at this
    simp only [accesses, List.length_append] at *; omega
  · simp only [accesses] at *; omega

theorem Within.ite {c : Prop} [Decidable c] {x y : Counted α} {k : Nat} (hx : c → Within x k) (hy : ¬ c → Within y k) :
    Within (if c then x else y) k := by
  split
  · exact hx ‹_›
  · exact hy ‹_›

theorem Within.forUp {lo hi : Nat} {s : σ} {body : Nat → σ → Counted σ} {b : Nat}
    (h : ∀ i s, Within (body i s) b) : Within (forUp lo hi s body) ((hi - lo) * b) := by
  unfold Counted.forUp
  generalize hi - lo = k
  induction k generalizing lo s with
  | zero => exact (Within.pure s).mono (Nat.zero_le _)
  | succ k ih =>
    rw [Nat.succ_mul, Nat.add_comm (k * b)]
    exact (h lo s).bind fun s' _ => ih

theorem Within.forUpC {lo hi : Nat} {s : σ} {body : Nat → σ → Counted (Ctl σ ρ)} {b : Nat}
    (h : ∀ i s, Within (body i s) b) : Within (forUpC lo hi s body) ((hi - lo) * b) := by
  unfold Counted.forUpC
  generalize hi - lo = k
  induction k generalizing lo s with
  | zero => exact (Within.pure _).mono (Nat.zero_le _)
  | succ k ih =>
    rw [Nat.succ_mul, Nat.add_comm (k * b)]
    refine (h lo s).bind fun c _ => ?_
    cases c with
    | next s' => exact ih
    | leave r => exact (Within.pure _).mono (Nat.zero_le _)

theorem Within.forDown {lo hi : Nat} {s : σ} {body : Nat → σ → Counted σ} {b : Nat}
    (h : ∀ i s, Within (body i s) b) : Within (forDown hi lo s body) ((hi - lo) * b) := by
  unfold Counted.forDown
  generalize hi - lo = k
  induction k generalizing s with
  | zero => exact (Within.pure s).mono (Nat.zero_le _)
  | succ k ih =>
    rw [Nat.succ_mul, Nat.add_comm (k * b)]
    exact (h _ s).bind fun s' _ => ih

theorem Within.forDownC {lo hi : Nat} {s : σ} {body : Nat → σ → Counted (Ctl σ ρ)} {b : Nat}
    (h : ∀ i s, Within (body i s) b) : Within (forDownC hi lo s body) ((hi - lo) * b) := by
  unfold Counted.forDownC
  generalize hi - lo = k
  induction k generalizing s with
  | zero => exact (Within.pure _).mono (Nat.zero_le _)
  | succ k ih =>
    rw [Nat.succ_mul, Nat.add_comm (k * b)]
    refine (h _ s).bind fun c _ => ?_
    cases c with
    | next s' => exact ih
    | leave r => exact (Within.pure _).mono (Nat.zero_le _)

theorem Within.whileC {fuel : Nat} {s : σ} {body : σ → Counted (Ctl σ ρ)} {b : Nat}
    (h : ∀ s, Within (body s) b) : Within (whileC fuel s body) (fuel * b) := by
  induction fuel generalizing s with
  | zero => exact (Within.lift _).mono (Nat.zero_le _)
  | succ k ih =>
    rw [Nat.succ_mul, Nat.add_comm (k * b)]
    refine (h s).bind fun c _ => ?_
    cases c with
    | next s' => exact ih
    | leave r => exact (Within.pure _).mono (Nat.zero_le _)

/-- A loop that finishes with `j` units of fuel does the same with more. -/
theorem whileC_more {j k : Nat} (hjk : j ≤ k) {s : σ} {body : σ → Counted (Ctl σ ρ)} {r : ρ}
    (h : (whileC j s body).run = .ok r) : whileC k s body = whileC j s body := by
  induction j generalizing k s with
  | zero => simp [whileC] at h
  | succ j ih =>
    obtain ⟨k, rfl⟩ : ∃ k', k = k' + 1 := ⟨k - 1, by omega⟩
    simp only [whileC]
    simp only [whileC, run_bind] at h
    show Counted.bind _ _ = Counted.bind _ _
    unfold Counted.bind
    cases hb : (body s).run with
    | error e => rfl
    | ok c =>
      rw [hb, ok_bind] at h
      cases c with
      | next s' => simp only at h ⊢; rw [ih (by omega) h]
      | leave r => rfl

/-- Sequences that agree on what the first step yields. -/
theorem bind_more {x : Counted α} {f g : α → Counted β} {r : β} (h : (x >>= f).run = .ok r)
    (hfg : ∀ a, (f a).run = .ok r → g a = f a) : x >>= g = x >>= f := by
  rw [run_bind] at h
  show Counted.bind x g = Counted.bind x f
  unfold Counted.bind
  cases hx : x.run with
  | error e => rfl
  | ok a => rw [hx, ok_bind] at h; simp only [hfg a h]

/-- Exactly `k` accesses, and no undefined behaviour. -/
def Takes (x : Counted α) (k : Nat) : Prop := x.accesses = k ∧ ∃ v, x.run = .ok v

theorem Takes.pure (a : α) : Takes (pure a : Counted α) 0 := ⟨rfl, a, rfl⟩
theorem Takes.rd {n : Nat} (b : Vector α n) {i : Nat} (h : i < n) : Takes (rd b i) 1 :=
  ⟨rfl, b[i], by simp [AesiMP.rd, h]⟩
theorem Takes.wr {n : Nat} (b : Vector α n) {i : Nat} (v : α) (h : i < n) : Takes (wr b i v) 1 :=
  ⟨rfl, b.set i v, by simp [AesiMP.wr, h]⟩
theorem Takes.lift {e : Exec α} (h : ∃ v, e = .ok v) : Takes (lift e) 0 := ⟨rfl, h⟩

theorem Takes.bind {x : Counted α} {f : α → Counted β} {j k : Nat} (hx : Takes x j)
    (hf : ∀ a, x.run = .ok a → Takes (f a) k) : Takes (x >>= f) (j + k) := by
  obtain ⟨h1, a, ha⟩ := hx
  obtain ⟨h2, v, hv⟩ := hf a ha
  refine ⟨?_, v, by rw [run_bind, ha]; exact hv⟩
  show (Counted.bind x f).accesses = _
  unfold Counted.bind
  simp only [accesses] at h1 h2
  simp only [ha, accesses, List.length_append, h1, h2]

theorem Takes.of_eq {x : Counted α} {j k : Nat} (h : Takes x j) (hjk : j = k) : Takes x k := hjk ▸ h

theorem Takes.forUp {lo hi : Nat} {s : σ} {body : Nat → σ → Counted σ} {b : Nat}
    (h : ∀ i s, i < hi → Takes (body i s) b) : Takes (forUp lo hi s body) ((hi - lo) * b) := by
  unfold Counted.forUp
  generalize hk : hi - lo = k
  induction k generalizing lo s with
  | zero => exact (Takes.pure s).of_eq (Nat.zero_mul _).symm
  | succ k ih =>
    rw [Nat.succ_mul, Nat.add_comm (k * b)]
    exact (h lo s (by omega)).bind fun s' _ => ih (lo := lo + 1) (by omega)

theorem Takes.forDown {lo hi : Nat} {s : σ} {body : Nat → σ → Counted σ} {b : Nat}
    (h : ∀ i s, lo ≤ i → i < hi → Takes (body i s) b) : Takes (forDown hi lo s body) ((hi - lo) * b) := by
  unfold Counted.forDown
  have : ∀ k, lo + k ≤ max hi lo → ∀ s : σ, Takes (forDownN lo body k s) (k * b) := by
    intro k
    induction k with
    | zero => intro _ s; exact (Takes.pure s).of_eq (Nat.zero_mul _).symm
    | succ k ih =>
      intro hk s
      rw [Nat.succ_mul, Nat.add_comm (k * b)]
      exact (h (lo + k) s (by omega) (by omega)).bind fun s' _ => ih (by omega) s'
  exact this _ (by omega) s

end Counted
end AesiMP
