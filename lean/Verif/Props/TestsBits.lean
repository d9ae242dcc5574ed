import Verif.Props.TestsSigned
import Verif.Props.Access

/-! # C94: the randomised tests of the bit operations, for every draw -/

namespace AesiMP
open Aeu
variable {n : Nat}

private theorem nat_of_drawn {k : Nat} {x : Int} (h : Drawn k x) : ∃ v : Nat, x = v ∧ v < 2 ^ k := by
  refine ⟨x.toNat, by have := h.1; omega, ?_⟩
  have := h.2
  have h0 := h.1
  have : ((x.toNat : Nat) : Int) < ((2 ^ k : Nat) : Int) := by push_cast; omega
  exact_mod_cast this

private theorem drawnS_nat {k j v : Nat} (h : v < 2 ^ k) (hk : k ≤ j) : DrawnS j (v : Int) := by
  unfold DrawnS
  rw [Int.natAbs_natCast]
  exact lt_of_lt_of_le h (Nat.pow_le_pow_right (by norm_num) hk)

theorem bitwiseU_ok (cfg : Cfg) (hn : 1 ≤ n) {op : Aeu n → Aeu n → Exec (Aeu n)}
    {assignOp : Heap n → Nat → Nat → Exec (Heap n)} {opZ : Nat → Nat → Nat}
    (hop : ∀ a b, Returns (op a b) (opZ (toNat a) (toNat b)))
    (hassign : ∀ h, Sat (assignOp h 0 1) fun h' => toNat (h' 0) = opZ (toNat (h 0)) (toNat (h 1)) ∧
      ∀ p, p ≠ 0 → h' p = h p)
    (hlt : ∀ k x y, x < 2 ^ k → y < 2 ^ k → opZ x y < 2 ^ k)
    {l r l' r' : Int} (hl : Drawn (32 * n - 20) l) (hr : Drawn (32 * n - 20) r)
    (hl' : Drawn (32 * n - 20) l') (hr' : Drawn (32 * n - 20) r') :
    Tests.bitwiseU cfg op assignOp opZ l r l' r' = .ok true := by
  obtain ⟨l, rfl, kl⟩ := nat_of_drawn hl
  obtain ⟨r, rfl, kr⟩ := nat_of_drawn hr
  obtain ⟨l', rfl, kl'⟩ := nat_of_drawn hl'
  obtain ⟨r', rfl, kr'⟩ := nat_of_drawn hr'
  clear hl hr hl' hr'
  rename' kl => hl, kr => hr, kl' => hl', kr' => hr'
  have hk : 32 * n - 20 ≤ 32 * n := by omega
  obtain ⟨a, ha, ha'⟩ := ofMpz_drawn (n := n) cfg (by omega) (drawnS_nat hl hk)
  obtain ⟨b, hb, hb'⟩ := ofMpz_drawn (n := n) cfg (by omega) (drawnS_nat hr hk)
  obtain ⟨c, hc, hc'⟩ := ofMpz_drawn (n := n) cfg (by omega) (drawnS_nat hl' hk)
  obtain ⟨d, hd, hd'⟩ := ofMpz_drawn (n := n) cfg (by omega) (drawnS_nat hr' hk)
  have ha' : toNat a = l := by exact_mod_cast ha'
  have hb' : toNat b = r := by exact_mod_cast hb'
  have hc' : toNat c = l' := by exact_mod_cast hc'
  have hd' : toNat d = r' := by exact_mod_cast hd'
  obtain ⟨x, hx, hx'⟩ := hop a b
  obtain ⟨h, hh, hh', -⟩ := hassign (fun p => if p = 0 then c else d)
  simp only [if_true, Nat.one_ne_zero, if_false, hc', hd'] at hh'
  rw [ha', hb'] at hx'
  unfold Tests.bitwiseU
  simp only [Int.natAbs_natCast]
  rw [ha, ok_bind, hb, ok_bind, hx, ok_bind, eqMpz_neg cfg x (drawnS_nat (hlt _ _ _ hl hr) hk), ok_bind,
    hc, ok_bind, hd, ok_bind, hh, ok_bind, eqMpz_neg cfg _ (drawnS_nat (hlt _ _ _ hl' hr') hk), ok_bind]
  simp [hx', hh']

/-- The tests of `&`, `|` and `^` pass for every draw. -/
theorem C94_bitwise (cfg : Cfg) (hn : 1 ≤ n) {l r l' r' : Int} (hl : Drawn (32 * n - 20) l)
    (hr : Drawn (32 * n - 20) r) (hl' : Drawn (32 * n - 20) l') (hr' : Drawn (32 * n - 20) r') :
    Tests.bitwiseU (n := n) cfg Aeu.and (Alias.bitwiseAssign (· &&& ·)) (· &&& ·) l r l' r' = .ok true ∧
    Tests.bitwiseU (n := n) cfg Aeu.or (Alias.bitwiseAssign (· ||| ·)) (· ||| ·) l r l' r' = .ok true ∧
    Tests.bitwiseU (n := n) cfg Aeu.xor (Alias.bitwiseAssign (· ^^^ ·)) (· ^^^ ·) l r l' r' = .ok true :=
  ⟨bitwiseU_ok cfg hn C09_and (fun h => C53_and h 0 1) (fun _ x _ _ h => Nat.and_lt_two_pow x h) hl hr hl' hr',
   bitwiseU_ok cfg hn C09_or (fun h => C53_or h 0 1) (fun _ _ _ h h' => Nat.or_lt_two_pow h h') hl hr hl' hr',
   bitwiseU_ok cfg hn C09_xor (fun h => C53_xor h 0 1) (fun _ _ _ h h' => Nat.xor_lt_two_pow h h') hl hr hl' hr'⟩

/-- The tests of the shifts pass for every draw and every iteration `i < 512`. -/
theorem C94_shifts (cfg : Cfg) {i : Nat} (hi : i < 512) :
    (∀ {value value' : Int}, Drawn 200 value → Drawn 200 value' →
      Tests.leftShift cfg 32 value value' (i + 200) = .ok true) ∧
    (∀ {value value' : Int}, Drawn 990 value → Drawn 990 value' →
      Tests.rightShift cfg 32 value value' (i + 256) = .ok true) := by
  constructor
  · intro v v' hv hv'
    obtain ⟨v, rfl, kv⟩ := nat_of_drawn hv
    obtain ⟨v', rfl, kv'⟩ := nat_of_drawn hv'
    clear hv hv'
    rename' kv => hv, kv' => hv'
    have key : ∀ {v : Nat}, v < 2 ^ 200 → v * 2 ^ (i + 200) < 2 ^ (32 * 32) := fun {v} h =>
      lt_of_lt_of_le (Nat.mul_lt_mul_of_pos_right h (Nat.two_pow_pos _))
        (by rw [← Nat.pow_add]; exact Nat.pow_le_pow_right (by norm_num) (by omega))
    obtain ⟨a, ha, ha'⟩ := ofMpz_drawn (n := 32) cfg (by omega) (drawnS_nat (j := 32 * 32) hv (by norm_num))
    obtain ⟨b, hb, hb'⟩ := ofMpz_drawn (n := 32) cfg (by omega) (drawnS_nat (j := 32 * 32) hv' (by norm_num))
    have ha' : toNat a = v := by exact_mod_cast ha'
    have hb' : toNat b = v' := by exact_mod_cast hb'
    obtain ⟨x, hx, hx'⟩ := C10_shl a (i + 200) (by omega)
    obtain ⟨y, hy, hy'⟩ := C10_shl b (i + 200) (by omega)
    rw [ha', Nat.mod_eq_of_lt (key hv)] at hx'
    rw [hb', Nat.mod_eq_of_lt (key hv')] at hy'
    have e : ∀ v : Nat, (v : Int) * 2 ^ (i + 200) = ((v * 2 ^ (i + 200) : Nat) : Int) := fun v => by push_cast; rfl
    unfold Tests.leftShift
    rw [e, e, ha, ok_bind, hx, ok_bind, eqMpz_neg cfg x (drawnS_nat (key hv) le_rfl), ok_bind, hb, ok_bind, hy, ok_bind,
      eqMpz_neg cfg y (drawnS_nat (key hv') le_rfl), ok_bind, hx', hy']
    simp only [Int.natAbs_natCast, decide_true, Bool.and_self]
  · intro v v' hv hv'
    obtain ⟨v, rfl, kv⟩ := nat_of_drawn hv
    obtain ⟨v', rfl, kv'⟩ := nat_of_drawn hv'
    clear hv hv'
    rename' kv => hv, kv' => hv'
    have key : ∀ {v : Nat}, v < 2 ^ 990 → v / 2 ^ (i + 256) < 2 ^ 990 := fun {v} h =>
      lt_of_le_of_lt (Nat.div_le_self _ _) h
    obtain ⟨a, ha, ha'⟩ := ofMpz_drawn (n := 32) cfg (by omega) (drawnS_nat (j := 32 * 32) hv (by norm_num))
    obtain ⟨b, hb, hb'⟩ := ofMpz_drawn (n := 32) cfg (by omega) (drawnS_nat (j := 32 * 32) hv' (by norm_num))
    have ha' : toNat a = v := by exact_mod_cast ha'
    have hb' : toNat b = v' := by exact_mod_cast hb'
    obtain ⟨x, hx, hx'⟩ := C11_shr a (i + 256) (by omega)
    obtain ⟨y, hy, hy'⟩ := C11_shr b (i + 256) (by omega)
    rw [ha'] at hx'
    rw [hb'] at hy'
    have e : ∀ v : Nat, (v : Int) / 2 ^ (i + 256) = ((v / 2 ^ (i + 256) : Nat) : Int) := fun v => by push_cast; rfl
    unfold Tests.rightShift
    rw [e, e, ha, ok_bind, hx, ok_bind, eqMpz_neg cfg x (drawnS_nat (j := 32 * 32) (key hv) (by norm_num)), ok_bind, hb, ok_bind, hy,
      ok_bind, eqMpz_neg cfg y (drawnS_nat (j := 32 * 32) (key hv') (by norm_num)), ok_bind, hx', hy']
    simp only [Int.natAbs_natCast, decide_true, Bool.and_self]

/-! ### Bit counts -/

private theorem sizeInBase2_abs (z : Int) :
    mpzSizeInBase2 z = if z.natAbs = 0 then 1 else Nat.log 2 z.natAbs + 1 := by
  unfold mpzSizeInBase2
  by_cases h : z = 0
  · simp [h]
  · rw [if_neg h, if_neg (by omega), Nat.log2_eq_log_two]

/-- The tests of `bitCount` pass exactly for the draws other than 0 (`mpz_sizeinbase(0, 2)` is 1). -/
theorem C94_bitCount_exact (cfg : Cfg) (hn : 1 ≤ n) {value : Int} :
    (Drawn (32 * n - 20) value → Tests.countBitsU cfg n value = .ok (decide (value ≠ 0))) ∧
    (DrawnS (32 * n - 20) value → Tests.countBitsS cfg n value = .ok (decide (value ≠ 0))) := by
  have key : ∀ x : Aeu n, toNat x = value.natAbs → bitCount x = .ok (if value = 0 then 0 else mpzSizeInBase2 value) := by
    intro x hx
    rw [C15_bitCount (by omega), hx, sizeInBase2_abs]
    by_cases h : value = 0
    · simp [h]
    · have : value.natAbs ≠ 0 := by omega
      simp [h, this]
  have fin : (mpzSizeInBase2 value == if value = 0 then 0 else mpzSizeInBase2 value) = decide (value ≠ 0) := by
    by_cases h : value = 0
    · simp [h, mpzSizeInBase2]
    · simp [h]
  constructor
  · intro h
    obtain ⟨a, ha, ha'⟩ := ofMpz_drawn (n := n) cfg h.1 (h.signed.le (by omega))
    unfold Tests.countBitsU
    rw [ha, ok_bind, key a (by have : (toNat a : Int) = value := ha'; omega), ok_bind, fin]
  · intro h
    obtain ⟨a, ha, ha', hc⟩ := C60_signed (n := n) cfg value (h.fits (by omega))
    unfold Tests.countBitsS Aesi.bitCount
    by_cases h0 : value = 0
    · subst h0
      have : a = ⟨.zero, Aeu.zero n⟩ := by
        have := ha
        simp [Aesi.ofMpz] at this
        exact this.symm
      subst this
      rw [ha, ok_bind]
      show (do let c ← Aeu.bitCount (Aeu.zero n); _) = _
      rw [key (Aeu.zero n) (by simp), ok_bind, fin]
    · rw [ha, ok_bind, key a.base ?_, ok_bind, fin]
      rcases a with ⟨s, b⟩
      cases s <;> simp only [Aesi.toInt] at ha' ⊢ <;> omega

/-! ### Bits and bytes one by one -/

private theorem lt_size (z : Int) : z.natAbs < 2 ^ mpzSizeInBase2 z := by
  rw [sizeInBase2_abs]
  split
  · rename_i h; rw [h]; norm_num
  · exact Nat.lt_pow_succ_log_self (by norm_num) _

private theorem size_le {z : Int} {k : Nat} (hk : 1 ≤ k) (h : z.natAbs < 2 ^ k) : mpzSizeInBase2 z ≤ k := by
  rw [sizeInBase2_abs]
  split
  · exact hk
  · rename_i h0
    exact Nat.log_lt_of_lt_pow h0 h

/-- Setting the bits `0 .. b-1` of an object to those of `v`. -/
private theorem setBits_loop (cfg : Cfg) (a : Aeu n) {v b : Nat} (hb : b ≤ 32 * n) (hv : v < 2 ^ b)
    (ha : toNat a < 2 ^ b) :
    Returns (forUp 0 b a fun j a => setBit cfg a j (v.testBit j)) v := by
  refine Sat.forUp (fun j (x : Aeu n) => ∀ k, (toNat x).testBit k = if k < j then v.testBit k else (toNat a).testBit k)
    (Nat.zero_le _) (fun k => by simp) (fun j x _ hj hx => ?_) (fun x hx => ?_)
  · refine Sat.mono (setBit_sat cfg x (v.testBit j) (by omega)) fun r hr k => ?_
    rw [hr k, hx k]
    rcases lt_trichotomy k j with h | h | h
    · rw [if_neg (by omega), if_pos h, if_pos (by omega)]
    · subst h; rw [if_pos rfl, if_pos (by omega)]
    · rw [if_neg (by omega), if_neg (by omega), if_neg (by omega)]
  · refine Nat.eq_of_testBit_eq fun k => ?_
    rw [hx k]
    split
    · rfl
    · rename_i h
      have hle : 2 ^ b ≤ 2 ^ k := Nat.pow_le_pow_right (by norm_num) (by omega)
      rw [Nat.testBit_lt_two_pow (by omega), Nat.testBit_lt_two_pow (by omega)]

private theorem eq_of_bytes {x y : Nat} (h : ∀ k, x / 256 ^ k % 256 = y / 256 ^ k % 256) : x = y := by
  refine Nat.eq_of_testBit_eq fun i => ?_
  have key : ∀ z : Nat, z.testBit i = (z / 256 ^ (i / 8) % 256).testBit (i % 8) := by
    intro z
    rw [show (256 : Nat) = 2 ^ 8 from rfl, ← Nat.pow_mul, Nat.testBit_mod_two_pow, Nat.testBit_div_two_pow,
      decide_eq_true (Nat.mod_lt i (by norm_num)), Bool.true_and]
    congr 1
    omega
  rw [key, key, h]

private theorem gmpByte_toNat (z : Int) (k : Nat) : (Tests.gmpByte z k).toNat = z.natAbs / 256 ^ k % 256 := by
  unfold Tests.gmpByte
  rw [BitVec.toNat_ofNat, Nat.pow_mul]

private theorem setBytes_loop (cfg : Cfg) (a : Aeu n) {z : Int} {b : Nat} (hb : b ≤ 4 * n) (hz : z.natAbs < 256 ^ b)
    (ha : toNat a < 256 ^ b) :
    Returns (forUp 0 b a fun j a => setByte cfg a j (Tests.gmpByte z j)) z.natAbs := by
  refine Sat.forUp (fun j (x : Aeu n) => ∀ k, toNat x / 256 ^ k % 256 =
    if k < j then z.natAbs / 256 ^ k % 256 else toNat a / 256 ^ k % 256)
    (Nat.zero_le _) (fun k => by simp) (fun j x _ hj hx => ?_) (fun x hx => ?_)
  · refine Sat.mono (setByte_spec cfg x (Tests.gmpByte z j) (by omega)) fun r hr k => ?_
    rw [hr k, hx k]
    rcases lt_trichotomy k j with h | h | h
    · rw [if_neg (by omega), if_pos h, if_pos (by omega)]
    · subst h; rw [if_pos rfl, if_pos (by omega), gmpByte_toNat]
    · rw [if_neg (by omega), if_neg (by omega), if_neg (by omega)]
  · refine eq_of_bytes fun k => ?_
    rw [hx k]
    split
    · rfl
    · rename_i h
      have hle : 256 ^ b ≤ 256 ^ k := Nat.pow_le_pow_right (by norm_num) (by omega)
      rw [Nat.div_eq_of_lt (lt_of_lt_of_le ha hle), Nat.div_eq_of_lt (lt_of_lt_of_le hz hle)]

/-- A loop whose checks all hold leaves the verdict as it was. -/
private theorem check_loop {b : Nat} {e : Bool} {f : Nat → Exec Bool} (h : ∀ j, j < b → f j = .ok true) :
    (forUp 0 b e fun j e => do let c ← f j; .ok (e && c)) = .ok e := by
  have : Sat (forUp 0 b e fun j e => do let c ← f j; .ok (e && c)) (fun x => x = e) :=
    Sat.forUp (fun _ x => x = e) (Nat.zero_le _) rfl (fun j x _ hj hx => by
      rw [h j hj, ok_bind]
      exact Sat.ok (by simp [hx])) (fun _ h => h)
  obtain ⟨x, h1, h2⟩ := this
  rw [h1, h2]

private theorem getBit_check (cfg : Cfg) {x : Aeu n} {z : Int} (hx : toNat x = z.natAbs) {b : Nat} (hb : b ≤ 32 * n)
    (e : Bool) :
    (forUp 0 b e fun j e => do
      let c ← Aeu.getBit cfg x j
      .ok (e && c == z.natAbs.testBit j)) = .ok e := by
  have := check_loop (b := b) (e := e)
    (f := fun j => do let c ← Aeu.getBit cfg x j; .ok (c == z.natAbs.testBit j)) (fun j hj => by
      rw [C12_getBit cfg x j (by omega), ok_bind, hx]; simp)
  rw [← this]
  congr 1
  funext j e
  cases Aeu.getBit cfg x j <;> rfl

private theorem getByte_check (cfg : Cfg) {x : Aeu n} {z : Int} (hx : toNat x = z.natAbs) {b : Nat} (hb : b ≤ 4 * n)
    (e : Bool) :
    (forUp 0 b e fun j e => do
      let c ← Aeu.getByte cfg x j
      .ok (e && c == Tests.gmpByte z j)) = .ok e := by
  have := check_loop (b := b) (e := e)
    (f := fun j => do let c ← Aeu.getByte cfg x j; .ok (c == Tests.gmpByte z j)) (fun j hj => by
      obtain ⟨c, hc, hc'⟩ := C13_getByte cfg x j (by omega)
      have : c = Tests.gmpByte z j := BitVec.eq_of_toNat_eq (by rw [hc', hx, gmpByte_toNat])
      rw [hc, ok_bind, this]; simp)
  rw [← this]
  congr 1
  funext j e
  cases Aeu.getByte cfg x j <;> rfl

private theorem bytes_lt (z : Int) : z.natAbs < 256 ^ Tests.gmpBytes z := by
  refine lt_of_lt_of_le (lt_size z) ?_
  rw [show (256 : Nat) = 2 ^ 8 from rfl, ← Nat.pow_mul]
  exact Nat.pow_le_pow_right (by norm_num) (by unfold Tests.gmpBytes; omega)

private theorem bytes_le {z : Int} (hn : 1 ≤ n) (h : z.natAbs < 2 ^ (32 * n - 20)) : Tests.gmpBytes z ≤ 4 * n - 1 := by
  have := size_le (by omega) h
  unfold Tests.gmpBytes
  omega

/-- The unsigned tests of `getBit/setBit` and `getByte/setByte` pass for every draw. -/
theorem C94_bits_unsigned (cfg : Cfg) (hn : 1 ≤ n) {value : Int} (h : Drawn (32 * n - 20) value) :
    Tests.getSetBitU cfg n value = .ok true ∧ Tests.getSetByteU cfg n value = .ok true := by
  have hs := h.signed
  have hb := size_le (by omega) hs
  have hy := bytes_le hn hs
  obtain ⟨a, ha, ha'⟩ := ofMpz_drawn (n := n) cfg h.1 (hs.le (by omega))
  have ha' : toNat a = value.natAbs := by have : (toNat a : Int) = value := ha'; omega
  constructor
  · obtain ⟨x, hx, hx'⟩ := setBits_loop cfg (Aeu.zero n) (show mpzSizeInBase2 value ≤ 32 * n by omega) (lt_size value)
      (by rw [toNat_zero]; exact Nat.two_pow_pos _)
    unfold Tests.getSetBitU
    simp only
    rw [hx, ok_bind, eqMpz_neg cfg x (hs.le (by omega)), ok_bind, ha, ok_bind, getBit_check cfg ha' (by omega), hx']
    simp
  · obtain ⟨x, hx, hx'⟩ := setBytes_loop cfg (Aeu.zero n) (show Tests.gmpBytes value ≤ 4 * n by omega) (bytes_lt value)
      (by rw [toNat_zero]; exact Nat.pow_pos (by norm_num))
    unfold Tests.getSetByteU
    simp only
    rw [hx, ok_bind, eqMpz_neg cfg x (hs.le (by omega)), ok_bind, ha, ok_bind, getByte_check cfg ha' (by omega), hx']
    simp

/-- The comparison at the end of the signed tests: a nonzero sign over the digits of `|value|`. -/
private theorem eqMpz_signed (cfg : Cfg) (b : Aeu n) {value : Int} (hf : Aesi.Fits n value) {negative : Bool}
    (hb : toNat b = value.natAbs) (hsgn : value ≠ 0 → (negative = true ↔ value < 0)) :
    Aesi.eqMpz cfg (if negative = true then Aesi.inverse ⟨.positive, b⟩ else (⟨.positive, b⟩ : Aesi n)) value =
      .ok (decide (value ≠ 0)) := by
  by_cases h0 : value = 0
  · subst h0
    have : ∀ s : Sign, s ≠ .zero → Aesi.eqMpz cfg (⟨s, b⟩ : Aesi n) 0 = .ok false := by
      intro s hs
      unfold Aesi.eqMpz Aesi.ofMpz
      rw [if_pos rfl, ok_bind]
      unfold Aesi.eq Aesi.compareTo
      cases s
      · exact absurd rfl hs
      · rfl
      · rfl
    cases negative
    · simpa using this .positive (by simp)
    · simpa [Aesi.inverse] using this .negative (by simp)
  · have h := hsgn h0
    cases negative
    · rw [if_neg (by simp), C65_signed_partial cfg _ (fun _ => by simp only [hb]; omega) value hf]
      have : ¬ value < 0 := fun hh => by simpa using h.mpr hh
      simp only [Aesi.toInt, hb, h0, ne_eq, not_false_eq_true, decide_true]
      congr 1
      simp only [decide_eq_true_eq]
      omega
    · have hneg := h.mp rfl
      rw [if_pos rfl]
      show Aesi.eqMpz cfg (⟨.negative, b⟩ : Aesi n) value = _
      rw [C65_signed_partial cfg _ (fun _ => by simp only [hb]; omega) value hf]
      simp only [Aesi.toInt, hb, h0, ne_eq, not_false_eq_true, decide_true]
      congr 1
      simp only [decide_eq_true_eq]
      omega

private theorem aesi_one (hn : 1 ≤ n) : ∃ b : Aeu n, Aesi.ofIntegral n ITy.i32 1 = .ok ⟨.positive, b⟩ ∧ toNat b = 1 := by
  have hf : Aesi.Fits n 1 := by
    unfold Aesi.Fits
    exact Nat.one_lt_two_pow (by omega)
  obtain ⟨⟨s, b⟩, h1, h2, h3⟩ := Aesi.ofIntegral_spec (n := n) (t := ITy.i32) (by simp [ITy.all]) (v := 1)
    (by decide) (by decide) hf
  cases s
  · simp [Aesi.toInt] at h2
  · exact ⟨b, h1, by simpa [Aesi.toInt] using h2⟩
  · simp only [Aesi.toInt] at h2; omega

private theorem ofMpz_base (cfg : Cfg) {z : Int} (hf : Aesi.Fits n z) :
    Sat (Aesi.ofMpz cfg n z) fun a => toNat a.base = z.natAbs := by
  unfold Aesi.ofMpz
  split
  · rename_i h; subst h; exact Sat.ok (by simp)
  · obtain ⟨b, hb, hb'⟩ := C60_unsigned (n := n) cfg z (Or.inr hf)
    rw [hb, ok_bind]
    rw [Nat.mod_eq_of_lt hf] at hb'
    split <;> exact Sat.ok hb'

/-- A loop over the digits of an `Aesi` is the loop over its base. -/
private theorem forUp_base {b : Nat} {s : Sign} {x : Aeu n} {f : Nat → Aeu n → Exec (Aeu n)}
    {g : Nat → Aesi n → Exec (Aesi n)}
    (hg : ∀ j (y : Aeu n), g j ⟨s, y⟩ = (do let r ← f j y; .ok ⟨s, r⟩)) {v : Nat} (h : Returns (forUp 0 b x f) v) :
    ∃ r : Aeu n, forUp 0 b (⟨s, x⟩ : Aesi n) g = .ok ⟨s, r⟩ ∧ toNat r = v := by
  obtain ⟨r, hr, hr'⟩ := h
  refine ⟨r, ?_, hr'⟩
  rw [forUp_sim (fun y : Aeu n => (⟨s, y⟩ : Aesi n)) hg 0 b x, hr, ok_bind]

/-- The signed tests of `getBit/setBit` and `getByte/setByte` pass exactly for the draws other than 0: for 0 the
object ends as a zero that claims a sign. -/
theorem C94_bits_signed_exact (cfg : Cfg) (hn : 1 ≤ n) {negative : Bool} {value : Int} (h : DrawnS (32 * n - 20) value)
    (hsgn : value ≠ 0 → (negative = true ↔ value < 0)) :
    Tests.getSetBitS cfg n negative value = .ok (decide (value ≠ 0)) ∧
    Tests.getSetByteS cfg n negative value = .ok (decide (value ≠ 0)) := by
  have hb := size_le (by omega) h
  have hy := bytes_le hn h
  have hf : Aesi.Fits n value := h.fits (by omega)
  obtain ⟨o, ho, ho'⟩ := aesi_one hn
  obtain ⟨a, ha, ha'⟩ := ofMpz_base (n := n) cfg hf
  have one_lt : ∀ c k : Nat, 2 ≤ c → 1 ≤ k → toNat o < c ^ k := fun c k hc hk => by
    rw [ho']; exact Nat.one_lt_pow (by omega) (by omega)
  have hs1 : 1 ≤ mpzSizeInBase2 value := by rw [sizeInBase2_abs]; split <;> omega
  have hs2 : 1 ≤ Tests.gmpBytes value := by unfold Tests.gmpBytes; omega
  constructor
  · obtain ⟨x, hx, hx'⟩ := forUp_base (s := .positive) (g := fun j a => Aesi.setBit cfg a j (value.natAbs.testBit j))
      (fun j y => rfl) (setBits_loop cfg o (show mpzSizeInBase2 value ≤ 32 * n by omega) (lt_size value)
        (one_lt _ _ le_rfl hs1))
    unfold Tests.getSetBitS
    simp only
    rw [ho, ok_bind, hx, ok_bind, eqMpz_signed cfg x hf hx' hsgn, ok_bind, ha, ok_bind]
    exact getBit_check cfg ha' (by omega) _
  · obtain ⟨x, hx, hx'⟩ := forUp_base (s := .positive) (g := fun j a => Aesi.setByte cfg a j (Tests.gmpByte value j))
      (fun j y => rfl) (setBytes_loop cfg o (show Tests.gmpBytes value ≤ 4 * n by omega) (bytes_lt value)
        (one_lt _ _ (by norm_num) hs2))
    unfold Tests.getSetByteS
    simp only
    rw [ho, ok_bind, hx, ok_bind, eqMpz_signed cfg x hf hx' hsgn, ok_bind, ha, ok_bind]
    exact getByte_check cfg ha' (by omega) _

/-! ### Blocks -/

private theorem push_byte (x : Block) (b : BitVec 8) :
    ((x <<< 8) ||| b.setWidth 32).toNat = x.toNat % 2 ^ 24 * 256 + b.toNat := by
  have hb := b.isLt
  rw [BitVec.toNat_or, BitVec.toNat_setWidth, BitVec.toNat_shiftLeft, Nat.shiftLeft_eq,
    Nat.mod_eq_of_lt (show b.toNat < 2 ^ 32 by omega)]
  rw [show x.toNat * 2 ^ 8 % 2 ^ 32 = x.toNat % 2 ^ 24 * 2 ^ 8 by omega, ← Nat.shiftLeft_eq,
    ← Nat.shiftLeft_add_eq_or_of_lt (by omega)]

private theorem byte_at (z : Int) (j i : Nat) :
    (Tests.gmpByte z (4 * j + i)).toNat = z.natAbs / 2 ^ (32 * j) / 256 ^ i % 256 := by
  rw [gmpByte_toNat, Nat.div_div_eq_div_mul, show (2 : Nat) ^ (32 * j) = 256 ^ (4 * j) by
    rw [show (256 : Nat) = 2 ^ 8 from rfl, ← Nat.pow_mul]; congr 1; omega, ← Nat.pow_add]

private theorem blockOf_spec (z : Int) (j : Nat) {fb : Nat} (hfb : fb ≤ 1) :
    Sat (Tests.blockOf z fb j) fun b => b.toNat = z.natAbs / 2 ^ (32 * j) % 2 ^ 32 := by
  have e : ∀ k, k ≤ 4 → (j + 1) * 4 - k = 4 * j + (4 - k) := by intro k hk; omega
  rcases Nat.le_one_iff_eq_zero_or_eq_one.mp hfb with rfl | rfl
  · refine ⟨_, rfl, ?_⟩
    simp only [push_byte, e _ (show 0 ≤ 4 by omega), e _ (show 0 + 1 ≤ 4 by omega),
      e _ (show 0 + 1 + 1 ≤ 4 by omega), e _ (show 0 + 1 + 1 + 1 ≤ 4 by omega),
      e _ (show 0 + 1 + 1 + 1 + 1 ≤ 4 by omega), byte_at]
    generalize z.natAbs / 2 ^ (32 * j) = q
    norm_num
    omega
  · refine ⟨_, rfl, ?_⟩
    simp only [push_byte, e _ (show 1 ≤ 4 by omega),
      e _ (show 1 + 1 ≤ 4 by omega), e _ (show 1 + 1 + 1 ≤ 4 by omega),
      e _ (show 1 + 1 + 1 + 1 ≤ 4 by omega), byte_at]
    generalize z.natAbs / 2 ^ (32 * j) = q
    norm_num
    omega

private theorem lastBlock_diverges (fuel : Nat) {z : Int} (hz : Tests.gmpBytes z / 4 = 0) :
    Tests.lastBlock fuel z = .error .diverges := by
  unfold Tests.lastBlock
  simp only [hz]
  generalize ((BitVec.ofNat 64 (Tests.gmpBytes z) - 1#64, 0#32) : BitVec 64 × Block) = s
  induction fuel generalizing s with
  | zero => rfl
  | succ k ih =>
    obtain ⟨j, b⟩ := s
    unfold whileC
    simp only [Nat.zero_mul, Nat.zero_le, if_true, ok_bind]
    exact ih _

private theorem lastBlock_spec {fuel : Nat} (hfuel : 4 ≤ fuel) {z : Int} (h64 : Tests.gmpBytes z < 2 ^ 64)
    (hz : 1 ≤ Tests.gmpBytes z / 4) :
    Sat (Tests.lastBlock fuel z) fun b => b.toNat = z.natAbs / 2 ^ (32 * (Tests.gmpBytes z / 4)) := by
  have hlt := bytes_lt z
  unfold Tests.lastBlock
  simp only
  generalize hB : Tests.gmpBytes z = B at *
  generalize hT : B / 4 = T at *
  have hq : ∀ r, B = 4 * T + r → z.natAbs / 2 ^ (32 * T) < 256 ^ r := by
    intro r hr
    rw [Nat.div_lt_iff_lt_mul (Nat.two_pow_pos _), show (2 : Nat) ^ (32 * T) = 256 ^ (4 * T) by
      rw [show (256 : Nat) = 2 ^ 8 from rfl, ← Nat.pow_mul]; congr 1; omega, ← Nat.pow_add]
    rwa [Nat.add_comm, ← hr]
  refine Sat.whileC (fun s => ∃ i, i ≤ 3 ∧ s.1.toNat + 1 = 4 * T + i ∧
      s.2.toNat = z.natAbs / 2 ^ (32 * T) / 256 ^ i)
    (fun s => s.1.toNat + 1 - 4 * T) ?_ ?_ ?_
  · refine ⟨B - 4 * T, by omega, ?_, ?_⟩
    · simp only [BitVec.toNat_sub, BitVec.toNat_ofNat]
      omega
    · rw [Nat.div_eq_of_lt (hq _ (by omega))]
      rfl
  · simp only [BitVec.toNat_sub, BitVec.toNat_ofNat]
    omega
  · rintro ⟨j, b⟩ ⟨i, hi, hj, hb⟩
    simp only at hj hb ⊢
    split
    · rename_i hle
      refine Sat.ok ⟨⟨i - 1, by omega, ?_, ?_⟩, ?_⟩
      · simp only [BitVec.toNat_sub, BitVec.toNat_ofNat]
        have := j.isLt
        omega
      · simp only
        obtain ⟨k, rfl⟩ : ∃ k, i = k + 1 := ⟨i - 1, by omega⟩
        rw [push_byte, hb, show j.toNat = 4 * T + k by omega, byte_at, Nat.add_sub_cancel, Nat.pow_succ]
        have hq' := hq (B - 4 * T) (by omega)
        have : z.natAbs / 2 ^ (32 * T) < 256 ^ 3 :=
          lt_of_lt_of_le hq' (Nat.pow_le_pow_right (by norm_num) (by omega))
        generalize z.natAbs / 2 ^ (32 * T) = q at *
        rw [← Nat.div_div_eq_div_mul]
        have h1 : q / 256 ^ k / 256 < 2 ^ 24 :=
          lt_of_le_of_lt (Nat.div_le_self _ _) (lt_of_le_of_lt (Nat.div_le_self _ _) (by norm_num at this ⊢; omega))
        rw [Nat.mod_eq_of_lt h1]
        omega
      · simp only [BitVec.toNat_sub, BitVec.toNat_ofNat]
        have := j.isLt
        omega
    · rename_i hle
      have : i = 0 := by omega
      subst this
      refine Sat.ok ?_
      show b.toNat = _
      rw [hb, Nat.pow_zero, Nat.div_one]

private theorem bytes_ge (z : Int) : 1 ≤ Tests.gmpBytes z / 4 ↔ 2 ^ 24 ≤ z.natAbs := by
  unfold Tests.gmpBytes
  constructor
  · intro h
    by_contra hc
    have := size_le (z := z) (k := 24) (by norm_num) (by omega)
    omega
  · intro h
    have := lt_size z
    by_contra hc
    have hle : mpzSizeInBase2 z ≤ 24 := by omega
    have := Nat.pow_le_pow_right (show 0 < 2 by norm_num) hle
    omega

private theorem setBlocks (cfg : Cfg) (hn : 1 ≤ n) {fuel : Nat} (hfuel : 4 ≤ fuel) (h64 : 4 * n < 2 ^ 64) {fb : Nat}
    (hfb : fb ≤ 1) (a : Aeu n) (ha : toNat a < 2 ^ 32) {z : Int} (hz : z.natAbs < 2 ^ (32 * n - 20))
    (hbig : 2 ^ 24 ≤ z.natAbs) :
    ∃ x : Aeu n, ∃ b : Block, ∃ r : Aeu n,
      (forUp 0 (Tests.gmpBytes z / 4) a fun j x => do
        let block ← Tests.blockOf z fb j
        Aeu.setBlock cfg x j block) = .ok x ∧
      Tests.lastBlock fuel z = .ok b ∧ Aeu.setBlock cfg x (Tests.gmpBytes z / 4) b = .ok r ∧ toNat r = z.natAbs := by
  have hy := bytes_le hn hz
  have hT := (bytes_ge z).mpr hbig
  have hlt := bytes_lt z
  obtain ⟨b, hb, hb'⟩ := lastBlock_spec hfuel (by omega) hT
  obtain ⟨x, hx, hx'⟩ := Sat.forUp (s := a) (lo := 0) (hi := Tests.gmpBytes z / 4)
    (body := fun j x => do
        let block ← Tests.blockOf z fb j
        Aeu.setBlock cfg x j block)
    (Q := fun x => ∀ k, dig x k = if k < Tests.gmpBytes z / 4 then z.natAbs / 2 ^ (32 * k) % 4294967296 else dig a k)
    (fun j (x : Aeu n) => ∀ k, dig x k = if k < j then z.natAbs / 2 ^ (32 * k) % 4294967296 else dig a k)
    (Nat.zero_le _) (fun k => by simp) (fun j x _ hj hx => by
      obtain ⟨c, hc, hc'⟩ := blockOf_spec z j hfb
      rw [hc, ok_bind, setBlock_spec cfg x c (by omega)]
      refine Sat.ok fun k => ?_
      rw [dig_set (by omega), hx k]
      rcases lt_trichotomy k j with h | h | h
      · rw [if_neg (by omega), if_pos h, if_pos (by omega)]
      · subst h; rw [if_pos rfl, if_pos (by omega), hc']; rfl
      · rw [if_neg (by omega), if_neg (by omega), if_neg (by omega)]) (fun x hx => hx)
  refine ⟨x, b, x.set (Tests.gmpBytes z / 4) b (by omega), hx, hb, setBlock_spec cfg x b (by omega), ?_⟩
  have hfit : z.natAbs < 2 ^ (32 * n) := lt_of_lt_of_le hz (Nat.pow_le_pow_right (by norm_num) (by omega))
  have top : ∀ k, Tests.gmpBytes z / 4 < k → z.natAbs / 2 ^ (32 * k) = 0 := fun k hk =>
    Nat.div_eq_of_lt (lt_of_lt_of_le hlt (by
      rw [show (256 : Nat) = 2 ^ 8 from rfl, ← Nat.pow_mul]
      exact Nat.pow_le_pow_right (by norm_num) (by omega)))
  rw [← Nat.mod_eq_of_lt hfit, ← toNat_ofNat]
  congr 1
  refine ext_dig fun k hk => ?_
  rw [dig_ofNat, if_pos hk, dig_set (by omega), hx' k]
  have hb2 := b.isLt
  rcases lt_trichotomy k (Tests.gmpBytes z / 4) with h | h | h
  · rw [if_neg (by omega), if_pos h]
  · subst h; rw [if_pos rfl, ← hb']; omega
  · rw [if_neg (by omega), if_neg (by omega), top k h]
    have : dig a k = toNat a / 2 ^ (32 * k) % 2 ^ 32 := by rw [← toNat_digit]; rfl
    rw [this, Nat.div_eq_of_lt (lt_of_lt_of_le ha (Nat.pow_le_pow_right (by norm_num) (by omega)))]
    rfl

/-- The tests of `setBlock` pass exactly for the draws with `|value| ≥ 2^24`; for every smaller draw the loop
`for (std::size_t j = byteCount - 1; j >= 0; --j)` does not end, however many iterations it is given. -/
theorem C94_blocks_exact (cfg : Cfg) (hn : 1 ≤ n) (h64 : 4 * n < 2 ^ 64) {fuel : Nat} (hfuel : 4 ≤ fuel) {value : Int} :
    (Drawn (32 * n - 20) value →
      Tests.getSetBlockU cfg fuel n value = if 2 ^ 24 ≤ value then .ok true else .error .diverges) ∧
    (∀ {negative : Bool}, DrawnS (32 * n - 20) value → (value ≠ 0 → (negative = true ↔ value < 0)) →
      Tests.getSetBlockS cfg fuel n negative value = if 2 ^ 24 ≤ |value| then .ok true else .error .diverges) := by
  constructor
  · intro h
    have hs := h.signed
    split
    · rename_i hbig
      obtain ⟨x, b, r, h1, h2, h3, h4⟩ := setBlocks cfg hn hfuel h64 (fb := 1) le_rfl (Aeu.zero n) (by simp) hs
        (by omega)
      unfold Tests.getSetBlockU
      simp only
      rw [h1, ok_bind, h2, ok_bind, h3, ok_bind, eqMpz_neg cfg r (hs.le (by omega)), h4]
      simp
    · rename_i hsmall
      have h0 := h.1
      have hT : Tests.gmpBytes value / 4 = 0 := by
        have := mt (bytes_ge value).mp (by omega)
        omega
      unfold Tests.getSetBlockU
      simp only
      rw [hT, lastBlock_diverges fuel hT]
      rfl
  · intro negative h hsgn
    obtain ⟨o, ho, ho'⟩ := aesi_one hn
    unfold Tests.getSetBlockS
    simp only
    rw [ho, ok_bind, forUp_sim (fun y : Aeu n => (⟨.positive, y⟩ : Aesi n))
      (body := fun j x => do
        let block ← Tests.blockOf value 0 j
        Aeu.setBlock cfg x j block) (fun j y => by
          cases Tests.blockOf value 0 j <;> rfl)]
    by_cases hbig : 2 ^ 24 ≤ |value|
    · rw [if_pos hbig]
      have hbig' : 2 ^ 24 ≤ value.natAbs := by rw [Int.abs_eq_natAbs] at hbig; exact_mod_cast hbig
      obtain ⟨x, b, r, h1, h2, h3, h4⟩ := setBlocks cfg hn hfuel h64 (fb := 0) (by omega) o (by rw [ho']; norm_num) h hbig'
      rw [h1, ok_bind, ok_bind, h2, ok_bind]
      unfold Aesi.setBlock
      rw [h3, ok_bind, ok_bind, eqMpz_signed cfg r (h.fits (by omega)) h4 hsgn]
      have : value ≠ 0 := by omega
      simp [this]
    · have hsmall := hbig
      rw [if_neg hbig]
      have hT : Tests.gmpBytes value / 4 = 0 := by
        have := mt (bytes_ge value).mp (by rw [Int.abs_eq_natAbs] at hsmall; omega)
        omega
      rw [hT, lastBlock_diverges fuel hT]
      rfl

/-- Draws for which the shipped tests fail or hang, in the smallest precision the tests use. -/
theorem C94_flaky : Drawn (32 * 8 - 20) 0 ∧ Drawn (32 * 8 - 20) 0x123456 ∧
    Tests.countBitsU lp64 8 0 = .ok false ∧ Tests.getSetBitS lp64 8 true 0 = .ok false ∧
    Tests.getSetByteS lp64 8 false 0 = .ok false ∧
    (∀ fuel, 4 ≤ fuel → Tests.getSetBlockU lp64 fuel 8 0x123456 = .error .diverges) := by
  have h1 : Drawn (32 * 8 - 20) 0 := by unfold Drawn; decide +kernel
  have h2 : Drawn (32 * 8 - 20) 0x123456 := by unfold Drawn; decide +kernel
  refine ⟨h1, h2, (C94_bitCount_exact lp64 (by norm_num)).1 h1,
    (C94_bits_signed_exact lp64 (by norm_num) h1.signed (by simp)).1,
    (C94_bits_signed_exact lp64 (by norm_num) h1.signed (by simp)).2, fun fuel hf => ?_⟩
  exact (C94_blocks_exact lp64 (by norm_num) (by norm_num) hf).1 h2

-- non-trivial draws meet the hypotheses and the tests run as stated
example : Drawn (32 * 2 - 20) 0x9abcdef1234 ∧ DrawnS (32 * 2 - 20) (-0x9abcdef1234) ∧
    Tests.getSetBitU lp64 2 0x9abcdef1234 = .ok true ∧ Tests.getSetByteU lp64 2 0x9abcdef1234 = .ok true ∧
    Tests.getSetBlockU lp64 4 2 0x9abcdef1234 = .ok true ∧
    Tests.getSetBitS lp64 2 true (-0x9abcdef1234) = .ok true ∧
    Tests.getSetByteS lp64 2 true (-0x9abcdef1234) = .ok true ∧
    Tests.getSetBlockS lp64 4 2 true (-0x9abcdef1234) = .ok true ∧
    Tests.countBitsS lp64 2 (-0x9abcdef1234) = .ok true ∧
    Tests.bitwiseU (n := 2) lp64 Aeu.xor (Alias.bitwiseAssign (· ^^^ ·)) (· ^^^ ·) 0x9abcdef1234 0xfff0 5 3 = .ok true := by
  unfold Drawn DrawnS
  decide +kernel

/-! ### Concrete cases that meet the hypotheses -/

/-- The hypotheses of `C94_bitwise` are met. -/
example := C94_bitwise (n := 4) ⟨false, false, false⟩ (by omega) (l := 2 ^ 70) (r := 2 ^ 80 + 3) (l' := 5) (r' := 77)
  (by decide +kernel) (by decide +kernel) (by decide +kernel) (by decide +kernel)
example := (C94_shifts ⟨false, false, false⟩ (i := 100) (by omega)).1 (value := 2 ^ 100 + 3) (value' := 77)
  (by decide +kernel) (by decide +kernel)
example := (C94_bitCount_exact (n := 4) ⟨false, false, false⟩ (by omega) (value := -77)).2 (by decide)

/-- The hypotheses of `C94_bits_unsigned` are met. -/
example := C94_bits_unsigned (n := 4) ⟨false, false, false⟩ (by omega) (value := 2 ^ 70 + 3) (by decide +kernel)

/-- The hypotheses of `C94_bits_signed_exact` are met. -/
example := C94_bits_signed_exact (n := 4) ⟨false, false, false⟩ (by omega) (negative := true) (value := -2 ^ 70)
  (by decide) (by decide)
example := (C94_blocks_exact (n := 4) ⟨false, false, false⟩ (by omega) (by omega) (fuel := 4) (by omega)
  (value := 2 ^ 24)).1 (by decide +kernel)

end AesiMP
