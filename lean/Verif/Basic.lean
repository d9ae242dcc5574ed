/-!
# The C++ execution model

Undefined behaviour is a distinct outcome.  Every array access, every shift and every loop of the
modelled code goes through the combinators of this file.
-/

namespace AesiMP

/-- Outcomes of C++ code other than a value. -/
inductive UB where
  /-- array subscript or buffer write outside the object -/
  | outOfBounds
  /-- shift amount not smaller than the width of the (promoted) left operand -/
  | shiftTooWide
  /-- signed arithmetic overflow -/
  | signedOverflow
  /-- a failing `assert` (build without `NDEBUG`) -/
  | assertFailed
  /-- `std::isalnum` of a value that is neither `EOF` nor representable as `unsigned char` -/
  | ctypeDomain
  /-- read of an indeterminate value -/
  | uninitialised
  /-- the loop did not finish within the fuel given to the model -/
  | diverges
deriving DecidableEq, Repr

/-- Result of executing C++ code. -/
abbrev Exec := Except UB

instance {α : Type} [DecidableEq α] : DecidableEq (Exec α) := fun a b =>
  match a, b with
  | .ok x, .ok y => if h : x = y then isTrue (by rw [h]) else isFalse (by simpa using h)
  | .error x, .error y => if h : x = y then isTrue (by rw [h]) else isFalse (by simpa using h)
  | .ok _, .error _ => isFalse (by simp)
  | .error _, .ok _ => isFalse (by simp)

section ExecLemmas
variable {α β : Type}

@[simp] theorem ok_bind (a : α) (f : α → Exec β) : ((Except.ok a : Exec α) >>= f) = f a := rfl
@[simp] theorem error_bind (e : UB) (f : α → Exec β) :
    ((Except.error e : Exec α) >>= f) = .error e := rfl
@[simp] theorem pure_eq_ok (a : α) : (pure a : Exec α) = .ok a := rfl
@[simp] theorem map_ok (f : α → β) (a : α) : (f <$> (Except.ok a : Exec α)) = .ok (f a) := rfl

/-- Inversion of a successful sequence. -/
theorem bind_eq_ok {x : Exec α} {f : α → Exec β} {b : β} :
    (x >>= f) = .ok b ↔ ∃ a, x = .ok a ∧ f a = .ok b := by
  cases x <;> simp
end ExecLemmas

/-- `block` = `uint32_t` (Aeu.h:64). -/
abbrev Block := BitVec 32
/-- `uint64_t`. -/
abbrev U64 := BitVec 64

/-- `blockBase = 1ULL << 32` (Aeu.h:68). -/
def blockBase : U64 := 4294967296#64
/-- `blockMax = 0xffffffffu` (Aeu.h:69). -/
def blockMax : Block := 0xffffffff#32

/-- `static_cast<uint64_t>(b)` for a block. -/
def toU64 (b : Block) : U64 := b.setWidth 64
/-- `static_cast<block>(v)` for a `uint64_t`. -/
def toBlock (v : U64) : Block := v.setWidth 32

/-- `std::array<block, n>::operator[] const`: undefined outside the array. -/
def rd {α : Type} {n : Nat} (b : Vector α n) (i : Nat) : Exec α :=
  if h : i < n then .ok b[i] else .error .outOfBounds

/-- Assignment to `array[i]`: undefined outside the array. -/
def wr {α : Type} {n : Nat} (b : Vector α n) (i : Nat) (v : α) : Exec (Vector α n) :=
  if h : i < n then .ok (b.set i v) else .error .outOfBounds

/-- `x << s` on `uint32_t`: undefined for `s >= 32`. -/
def shl32 (x : Block) (s : Nat) : Exec Block :=
  if s < 32 then .ok (x <<< s) else .error .shiftTooWide
/-- `x >> s` on `uint32_t`. -/
def shr32 (x : Block) (s : Nat) : Exec Block :=
  if s < 32 then .ok (x >>> s) else .error .shiftTooWide
/-- `x << s` on `uint64_t`. -/
def shl64 (x : U64) (s : Nat) : Exec U64 :=
  if s < 64 then .ok (x <<< s) else .error .shiftTooWide
/-- `x >> s` on `uint64_t`. -/
def shr64 (x : U64) (s : Nat) : Exec U64 :=
  if s < 64 then .ok (x >>> s) else .error .shiftTooWide

/-- What a loop body does: go on with a new state, or leave the loop (`break`/`return`). -/
inductive Ctl (σ ρ : Type) where
  | next (s : σ)
  | leave (r : ρ)
deriving DecidableEq, Repr

section Loops
variable {σ ρ : Type}

/-- `k` iterations of `for(i = lo; ...; ++i)`. -/
def forUpN (body : Nat → σ → Exec σ) : (k i : Nat) → σ → Exec σ
  | 0, _, s => .ok s
  | k + 1, i, s => do let s' ← body i s; forUpN body k (i + 1) s'

/-- `for(std::size_t i = lo; i < hi; ++i) body`. -/
def forUp (lo hi : Nat) (s : σ) (body : Nat → σ → Exec σ) : Exec σ := forUpN body (hi - lo) lo s

/-- `k` iterations of a loop that may be left early. -/
def forUpCN (body : Nat → σ → Exec (Ctl σ ρ)) : (k i : Nat) → σ → Exec (Ctl σ ρ)
  | 0, _, s => .ok (.next s)
  | k + 1, i, s => do
    match ← body i s with
    | .next s' => forUpCN body k (i + 1) s'
    | .leave r => .ok (.leave r)

/-- `for(std::size_t i = lo; i < hi; ++i) body`, body may `break`/`return`. -/
def forUpC (lo hi : Nat) (s : σ) (body : Nat → σ → Exec (Ctl σ ρ)) : Exec (Ctl σ ρ) :=
  forUpCN body (hi - lo) lo s

/-- `for(std::size_t i = lo + k; i-- > lo;) body`: the body sees `lo + k - 1, ..., lo`. -/
def forDownN (lo : Nat) (body : Nat → σ → Exec σ) : (k : Nat) → σ → Exec σ
  | 0, s => .ok s
  | k + 1, s => do let s' ← body (lo + k) s; forDownN lo body k s'

/-- `for(std::size_t i = hi; i-- > lo;) body`. -/
def forDown (hi lo : Nat) (s : σ) (body : Nat → σ → Exec σ) : Exec σ :=
  forDownN lo body (hi - lo) s

/-- Descending loop that may be left early. -/
def forDownCN (lo : Nat) (body : Nat → σ → Exec (Ctl σ ρ)) : (k : Nat) → σ → Exec (Ctl σ ρ)
  | 0, s => .ok (.next s)
  | k + 1, s => do
    match ← body (lo + k) s with
    | .next s' => forDownCN lo body k s'
    | .leave r => .ok (.leave r)

/-- `for(std::size_t i = hi; i-- > lo;) body`, body may `break`/`return`. -/
def forDownC (hi lo : Nat) (s : σ) (body : Nat → σ → Exec (Ctl σ ρ)) : Exec (Ctl σ ρ) :=
  forDownCN lo body (hi - lo) s

/-- A data dependent loop (`while`, `do while`, `for(;cond;)`).  `fuel` bounds the number of
iterations of the model; running out of it is the outcome `diverges`. -/
def whileC (fuel : Nat) (s : σ) (body : σ → Exec (Ctl σ ρ)) : Exec ρ :=
  match fuel with
  | 0 => .error .diverges
  | k + 1 => do
    match ← body s with
    | .next s' => whileC k s' body
    | .leave r => .ok r

end Loops

/-! ### Reasoning rules for the loops -/
section LoopRules
variable {σ ρ : Type}

theorem forUpN_inv (Inv : Nat → σ → Prop) (body : Nat → σ → Exec σ) (hi : Nat) :
    ∀ (k i : Nat) (s : σ), i + k = hi → Inv i s →
    (∀ j s, i ≤ j → j < hi → Inv j s → ∃ s', body j s = .ok s' ∧ Inv (j + 1) s') →
    ∃ s', forUpN body k i s = .ok s' ∧ Inv hi s' := by
  intro k
  induction k with
  | zero =>
    intro i s hk h0 _
    simp only [Nat.add_zero] at hk
    subst hk
    exact ⟨s, rfl, h0⟩
  | succ k ih =>
    intro i s hk h0 hstep
    obtain ⟨s', hb, hs'⟩ := hstep i s (Nat.le_refl _) (by omega) h0
    obtain ⟨s'', hb', hs''⟩ := ih (i + 1) s' (by omega) hs'
      (fun j s h1 h2 h3 => hstep j s (by omega) h2 h3)
    exact ⟨s'', by simp [forUpN, hb, hb'], hs''⟩

/-- Invariant rule for the ascending loop. -/
theorem forUp_inv (Inv : Nat → σ → Prop) {lo hi : Nat} (hle : lo ≤ hi) {s : σ}
    {body : Nat → σ → Exec σ} (h0 : Inv lo s)
    (hstep : ∀ i s, lo ≤ i → i < hi → Inv i s → ∃ s', body i s = .ok s' ∧ Inv (i + 1) s') :
    ∃ s', forUp lo hi s body = .ok s' ∧ Inv hi s' :=
  forUpN_inv Inv body hi (hi - lo) lo s (by omega) h0 hstep

/-- Invariant rule for the ascending loop with early exit. -/
theorem forUpCN_inv (Inv : Nat → σ → Prop) (Post : ρ → Prop) (body : Nat → σ → Exec (Ctl σ ρ))
    (hi : Nat) :
    ∀ (k i : Nat) (s : σ), i + k = hi → Inv i s →
    (∀ j s, i ≤ j → j < hi → Inv j s → (∃ s', body j s = .ok (.next s') ∧ Inv (j + 1) s') ∨
      (∃ r, body j s = .ok (.leave r) ∧ Post r)) →
    (∃ s', forUpCN body k i s = .ok (.next s') ∧ Inv hi s') ∨
    (∃ r, forUpCN body k i s = .ok (.leave r) ∧ Post r) := by
  intro k
  induction k with
  | zero =>
    intro i s hk h0 _
    simp only [Nat.add_zero] at hk
    subst hk
    exact Or.inl ⟨s, rfl, h0⟩
  | succ k ih =>
    intro i s hk h0 hstep
    rcases hstep i s (Nat.le_refl _) (by omega) h0 with ⟨s', hb, hs'⟩ | ⟨r, hb, hr⟩
    · have := ih (i + 1) s' (by omega) hs' (fun j s h1 h2 h3 => hstep j s (by omega) h2 h3)
      simpa [forUpCN, hb] using this
    · exact Or.inr ⟨r, by simp [forUpCN, hb], hr⟩

theorem forUpC_inv (Inv : Nat → σ → Prop) (Post : ρ → Prop) {lo hi : Nat} (hle : lo ≤ hi) {s : σ}
    {body : Nat → σ → Exec (Ctl σ ρ)} (h0 : Inv lo s)
    (hstep : ∀ i s, lo ≤ i → i < hi → Inv i s →
      (∃ s', body i s = .ok (.next s') ∧ Inv (i + 1) s') ∨
      (∃ r, body i s = .ok (.leave r) ∧ Post r)) :
    (∃ s', forUpC lo hi s body = .ok (.next s') ∧ Inv hi s') ∨
    (∃ r, forUpC lo hi s body = .ok (.leave r) ∧ Post r) :=
  forUpCN_inv Inv Post body hi (hi - lo) lo s (by omega) h0 hstep

theorem forDownN_inv (lo : Nat) (Inv : Nat → σ → Prop) (body : Nat → σ → Exec σ) :
    ∀ (k : Nat) (s : σ), Inv (lo + k) s →
    (∀ j s, j < k → Inv (lo + j + 1) s → ∃ s', body (lo + j) s = .ok s' ∧ Inv (lo + j) s') →
    ∃ s', forDownN lo body k s = .ok s' ∧ Inv lo s' := by
  intro k
  induction k with
  | zero => intro s h0 _; exact ⟨s, rfl, h0⟩
  | succ k ih =>
    intro s h0 hstep
    obtain ⟨s', hb, hs'⟩ := hstep k s (by omega) h0
    obtain ⟨s'', hb', hs''⟩ := ih s' hs' (fun j s h1 h2 => hstep j s (by omega) h2)
    exact ⟨s'', by simp [forDownN, hb, hb'], hs''⟩

/-- Invariant rule for the descending loop: `Inv (i+1)` before the body at `i`, `Inv i` after. -/
theorem forDown_inv (Inv : Nat → σ → Prop) {hi lo : Nat} (hle : lo ≤ hi) {s : σ}
    {body : Nat → σ → Exec σ} (h0 : Inv hi s)
    (hstep : ∀ i s, lo ≤ i → i < hi → Inv (i + 1) s → ∃ s', body i s = .ok s' ∧ Inv i s') :
    ∃ s', forDown hi lo s body = .ok s' ∧ Inv lo s' := by
  apply forDownN_inv lo Inv body (hi - lo) s
  · have : lo + (hi - lo) = hi := by omega
    rw [this]; exact h0
  · intro j s hj h; exact hstep (lo + j) s (by omega) (by omega) h

theorem forDownCN_inv (lo : Nat) (Inv : Nat → σ → Prop) (Post : ρ → Prop)
    (body : Nat → σ → Exec (Ctl σ ρ)) :
    ∀ (k : Nat) (s : σ), Inv (lo + k) s →
    (∀ j s, j < k → Inv (lo + j + 1) s →
      (∃ s', body (lo + j) s = .ok (.next s') ∧ Inv (lo + j) s') ∨
      (∃ r, body (lo + j) s = .ok (.leave r) ∧ Post r)) →
    (∃ s', forDownCN lo body k s = .ok (.next s') ∧ Inv lo s') ∨
    (∃ r, forDownCN lo body k s = .ok (.leave r) ∧ Post r) := by
  intro k
  induction k with
  | zero => intro s h0 _; exact Or.inl ⟨s, rfl, h0⟩
  | succ k ih =>
    intro s h0 hstep
    rcases hstep k s (by omega) h0 with ⟨s', hb, hs'⟩ | ⟨r, hb, hr⟩
    · have := ih s' hs' (fun j s h1 h2 => hstep j s (by omega) h2)
      simpa [forDownCN, hb] using this
    · exact Or.inr ⟨r, by simp [forDownCN, hb], hr⟩

theorem forDownC_inv (Inv : Nat → σ → Prop) (Post : ρ → Prop) {hi lo : Nat} (hle : lo ≤ hi) {s : σ}
    {body : Nat → σ → Exec (Ctl σ ρ)} (h0 : Inv hi s)
    (hstep : ∀ i s, lo ≤ i → i < hi → Inv (i + 1) s →
      (∃ s', body i s = .ok (.next s') ∧ Inv i s') ∨
      (∃ r, body i s = .ok (.leave r) ∧ Post r)) :
    (∃ s', forDownC hi lo s body = .ok (.next s') ∧ Inv lo s') ∨
    (∃ r, forDownC hi lo s body = .ok (.leave r) ∧ Post r) := by
  apply forDownCN_inv lo Inv Post body (hi - lo) s
  · have : lo + (hi - lo) = hi := by omega
    rw [this]; exact h0
  · intro j s hj h; exact hstep (lo + j) s (by omega) (by omega) h

/-- Rule for data dependent loops: an invariant and a measure that decreases at each iteration and
stays below the fuel. -/
theorem whileC_inv (Inv : σ → Prop) (μ : σ → Nat) (Post : ρ → Prop) {body : σ → Exec (Ctl σ ρ)}
    (hstep : ∀ s, Inv s → (∃ s', body s = .ok (.next s') ∧ Inv s' ∧ μ s' < μ s) ∨
      (∃ r, body s = .ok (.leave r) ∧ Post r)) :
    ∀ (fuel : Nat) (s : σ), Inv s → μ s < fuel → ∃ r, whileC fuel s body = .ok r ∧ Post r := by
  intro fuel
  induction fuel with
  | zero => intro s _ h; omega
  | succ k ih =>
    intro s hs hμ
    rcases hstep s hs with ⟨s', hb, hs', hlt⟩ | ⟨r, hb, hr⟩
    · obtain ⟨r, h, hr⟩ := ih s' hs' (by omega)
      exact ⟨r, by simp [whileC, hb, h], hr⟩
    · exact ⟨r, by simp [whileC, hb], hr⟩

/-- More fuel never changes a finished run. -/
theorem whileC_mono {body : σ → Exec (Ctl σ ρ)} :
    ∀ (fuel : Nat) (s : σ) (r : ρ), whileC fuel s body = .ok r →
      ∀ fuel', fuel ≤ fuel' → whileC fuel' s body = .ok r := by
  intro fuel
  induction fuel with
  | zero => intro s r h; simp [whileC] at h
  | succ k ih =>
    intro s r h fuel' hle
    obtain ⟨k', rfl⟩ : ∃ k', fuel' = k' + 1 := ⟨fuel' - 1, by omega⟩
    rw [whileC] at h ⊢
    cases hb : body s with
    | error e => rw [hb] at h; simp at h
    | ok c =>
      rw [hb] at h
      cases c with
      | next s' => exact ih s' r h k' (by omega)
      | leave r' => exact h

end LoopRules

section Access
variable {α : Type} {n : Nat}

theorem rd_ok {b : Vector α n} {i : Nat} (h : i < n) : rd b i = .ok b[i] := by simp [rd, h]
theorem rd_oob {b : Vector α n} {i : Nat} (h : ¬ i < n) : rd b i = .error .outOfBounds := by
  simp [rd, h]
theorem wr_ok {b : Vector α n} {i : Nat} {v : α} (h : i < n) : wr b i v = .ok (b.set i v) := by
  simp [wr, h]
theorem wr_oob {b : Vector α n} {i : Nat} {v : α} (h : ¬ i < n) :
    wr b i v = .error .outOfBounds := by simp [wr, h]
theorem shl32_ok {x : Block} {s : Nat} (h : s < 32) : shl32 x s = .ok (x <<< s) := by simp [shl32, h]
theorem shr32_ok {x : Block} {s : Nat} (h : s < 32) : shr32 x s = .ok (x >>> s) := by simp [shr32, h]
theorem shl64_ok {x : U64} {s : Nat} (h : s < 64) : shl64 x s = .ok (x <<< s) := by simp [shl64, h]
theorem shr64_ok {x : U64} {s : Nat} (h : s < 64) : shr64 x s = .ok (x >>> s) := by simp [shr64, h]
end Access

/-! ### Total correctness assertions -/
section SatRules
variable {α β σ ρ : Type}

/-- `e` runs without undefined behaviour, terminates, and its result satisfies `P`. -/
def Sat (e : Exec α) (P : α → Prop) : Prop := ∃ a, e = .ok a ∧ P a

theorem Sat.ok {a : α} {P : α → Prop} (h : P a) : Sat (.ok a) P := ⟨a, rfl, h⟩
@[simp] theorem sat_ok {a : α} {P : α → Prop} : Sat (.ok a) P ↔ P a :=
  ⟨fun ⟨_, h, hp⟩ => by cases h; exact hp, Sat.ok⟩
@[simp] theorem sat_error {e : UB} {P : α → Prop} : ¬ Sat (.error e : Exec α) P := by
  rintro ⟨_, h, _⟩; simp at h
theorem Sat.bind {x : Exec α} {f : α → Exec β} {P : α → Prop} {Q : β → Prop} (h : Sat x P)
    (hf : ∀ a, P a → Sat (f a) Q) : Sat (x >>= f) Q := by
  obtain ⟨a, rfl, ha⟩ := h; exact hf a ha
theorem Sat.mono {x : Exec α} {P Q : α → Prop} (h : Sat x P) (hpq : ∀ a, P a → Q a) : Sat x Q := by
  obtain ⟨a, h1, h2⟩ := h; exact ⟨a, h1, hpq a h2⟩

theorem Sat.forUp (Inv : Nat → σ → Prop) {lo hi : Nat} (hle : lo ≤ hi) {s : σ}
    {body : Nat → σ → Exec σ} {Q : σ → Prop} (h0 : Inv lo s)
    (hstep : ∀ i s, lo ≤ i → i < hi → Inv i s → Sat (body i s) (Inv (i + 1)))
    (hpost : ∀ s, Inv hi s → Q s) : Sat (forUp lo hi s body) Q :=
  Sat.mono (forUp_inv Inv hle h0 hstep) hpost

theorem Sat.forDown (Inv : Nat → σ → Prop) {hi lo : Nat} (hle : lo ≤ hi) {s : σ}
    {body : Nat → σ → Exec σ} {Q : σ → Prop} (h0 : Inv hi s)
    (hstep : ∀ i s, lo ≤ i → i < hi → Inv (i + 1) s → Sat (body i s) (Inv i))
    (hpost : ∀ s, Inv lo s → Q s) : Sat (forDown hi lo s body) Q :=
  Sat.mono (forDown_inv Inv hle h0 hstep) hpost

/-- Postcondition of a loop body that may leave. -/
def CtlP (N : σ → Prop) (L : ρ → Prop) : Ctl σ ρ → Prop
  | .next s => N s
  | .leave r => L r

@[simp] theorem ctlP_next {N : σ → Prop} {L : ρ → Prop} {s : σ} :
    CtlP N L (.next s) ↔ N s := Iff.rfl
@[simp] theorem ctlP_leave {N : σ → Prop} {L : ρ → Prop} {r : ρ} :
    CtlP N L (.leave r : Ctl σ ρ) ↔ L r := Iff.rfl

theorem sat_ctl_iff {e : Exec (Ctl σ ρ)} {N : σ → Prop} {L : ρ → Prop} : Sat e (CtlP N L) ↔
    (∃ s, e = .ok (.next s) ∧ N s) ∨ (∃ r, e = .ok (.leave r) ∧ L r) := by
  constructor
  · rintro ⟨a, h, hp⟩
    cases a with
    | next s => exact Or.inl ⟨s, h, hp⟩
    | leave r => exact Or.inr ⟨r, h, hp⟩
  · rintro (⟨s, h, hp⟩ | ⟨r, h, hp⟩)
    · exact ⟨_, h, hp⟩
    · exact ⟨_, h, hp⟩

theorem Sat.forUpC (Inv : Nat → σ → Prop) (Post : ρ → Prop) {lo hi : Nat} (hle : lo ≤ hi) {s : σ}
    {body : Nat → σ → Exec (Ctl σ ρ)} {Q : Ctl σ ρ → Prop} (h0 : Inv lo s)
    (hstep : ∀ i s, lo ≤ i → i < hi → Inv i s → Sat (body i s) (CtlP (Inv (i + 1)) Post))
    (hpost : ∀ c, CtlP (Inv hi) Post c → Q c) : Sat (forUpC lo hi s body) Q :=
  Sat.mono (sat_ctl_iff.mpr (forUpC_inv Inv Post hle h0
    (fun i s h1 h2 h3 => sat_ctl_iff.mp (hstep i s h1 h2 h3)))) hpost

theorem Sat.forDownC (Inv : Nat → σ → Prop) (Post : ρ → Prop) {hi lo : Nat} (hle : lo ≤ hi) {s : σ}
    {body : Nat → σ → Exec (Ctl σ ρ)} {Q : Ctl σ ρ → Prop} (h0 : Inv hi s)
    (hstep : ∀ i s, lo ≤ i → i < hi → Inv (i + 1) s → Sat (body i s) (CtlP (Inv i) Post))
    (hpost : ∀ c, CtlP (Inv lo) Post c → Q c) : Sat (forDownC hi lo s body) Q :=
  Sat.mono (sat_ctl_iff.mpr (forDownC_inv Inv Post hle h0
    (fun i s h1 h2 h3 => sat_ctl_iff.mp (hstep i s h1 h2 h3)))) hpost

theorem Sat.whileC (Inv : σ → Prop) (μ : σ → Nat) {fuel : Nat} {s : σ} {Q : ρ → Prop}
    {body : σ → Exec (Ctl σ ρ)} (h0 : Inv s) (hfuel : μ s < fuel)
    (hstep : ∀ s, Inv s → Sat (body s) (CtlP (fun s' => Inv s' ∧ μ s' < μ s) Q)) :
    Sat (whileC fuel s body) Q :=
  whileC_inv Inv μ Q (fun s hs => sat_ctl_iff.mp (hstep s hs)) fuel s h0 hfuel

end SatRules

end AesiMP
