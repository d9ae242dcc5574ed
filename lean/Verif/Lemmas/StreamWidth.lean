import Verif.Lemmas.Stream

/-!
# `operator<<` with an arbitrary pending field width
-/

namespace AesiMP
open Aeu
variable {n cap : Nat}

namespace Aeu

/-- An item in the field the stream prescribes. -/
def OStreamField (os : OStream) (item : List Int) : List Int :=
  padded (os.adjust = .left) os.fill os.width item

theorem put_any (os : OStream) (item : List Int) :
    (os.put item).out = os.out ++ OStreamField os item ∧ (os.put item).width = 0 ∧
    (os.put item).uppercase = os.uppercase := by
  refine ⟨?_, rfl, rfl⟩
  simp only [OStream.put, OStreamField, padded, decide_eq_true_eq]

theorem field_zero (os : OStream) (h : os.width = 0) (item : List Int) : OStreamField os item = item := by
  simp [OStreamField, padded, h]

/-- The index of the top block, numerically. -/
theorem log_top {v l d : Nat} (hd : d ≠ 0) (hd2 : d < 2 ^ 32) (h : v / 2 ^ (32 * l) = d) :
    Nat.log (2 ^ 32) v = l := by
  have hv : v ≠ 0 := by rintro rfl; simp at h; omega
  have hp : (2 : Nat) ^ (32 * l) = (2 ^ 32) ^ l := by rw [Nat.pow_mul]
  rw [hp] at h
  rw [Nat.log_eq_iff (Or.inr ⟨by norm_num, hv⟩)]
  constructor
  · by_contra hc
    rw [Nat.div_eq_of_lt (by omega)] at h
    omega
  · rw [Nat.pow_succ]
    have := Nat.lt_of_lt_of_eq hd2 rfl
    rw [← h, Nat.div_lt_iff_lt_mul (by positivity)] at this
    rwa [Nat.mul_comm]

/-- The first group of hexadecimal digits. -/
def topHex (u : Bool) (v : Nat) : List Int := numeral u 16 (v / 2 ^ (32 * Nat.log (2 ^ 32) v))

theorem numeral_div_prefix (u : Bool) {b : Nat} (hb : 1 < b) (k : Nat) :
    ∀ v : Nat, v / b ^ k ≠ 0 → numeral u b (v / b ^ k) <+: numeral u b v := by
  induction k with
  | zero => intro v _; simp
  | succ k ih =>
    intro v hv
    have e : v / b ^ (k + 1) = v / b / b ^ k := by rw [Nat.pow_succ', Nat.div_div_eq_div_mul]
    rw [e] at hv ⊢
    have h1 : v / b ≠ 0 := by rintro h; rw [h] at hv; simp at hv
    have h2 : v ≠ 0 := by rintro rfl; simp at h1
    refine (ih _ hv).trans ?_
    have e2 : numeral u b v = numeral u b (v / b) ++ [digitChar u (v % b)] := by
      unfold numeral
      rw [if_neg h1, if_neg h2, Nat.digits_def' hb (by omega)]
      simp
    rw [e2]
    exact List.prefix_append _ _

theorem topHex_prefix (u : Bool) (v : Nat) (hv : v ≠ 0) : topHex u v <+: numeral u 16 v := by
  unfold topHex
  have e : (2 : Nat) ^ (32 * Nat.log (2 ^ 32) v) = 16 ^ (8 * Nat.log (2 ^ 32) v) := by
    rw [show (16 : Nat) = 2 ^ 4 by norm_num, ← Nat.pow_mul]; congr 1; omega
  rw [e]
  apply numeral_div_prefix u (by norm_num)
  rw [← e, Nat.pow_mul]
  have := Nat.pow_log_le_self (2 ^ 32) hv
  have := Nat.div_pos this (by positivity)
  omega

theorem streamHex_any (hn : 0 < n) (os : OStream) (x : Aeu n) (hx : toNat x ≠ 0) :
    Sat (streamHex os x) fun r => r.width = 0 ∧ r.out = os.out ++
      OStreamField os (topHex os.uppercase (toNat x)) ++
      (numeral os.uppercase 16 (toNat x)).drop (topHex os.uppercase (toNat x)).length := by
  unfold streamHex
  refine Sat.bind (scan_top hn x hx) ?_
  rintro l ⟨hl, hd0, hdiv⟩
  have hlen := hex_prefix os.uppercase x hx hl hd0 hdiv
  have hlog : Nat.log (2 ^ 32) (toNat x) = l :=
    log_top hd0 (by rw [dig_of_lt hl]; exact x[l].isLt) hdiv
  unfold topHex
  rw [hlog]
  simp only [rd_ok hl, ok_bind]
  generalize hf : numeral os.uppercase 16 (toNat x / 2 ^ (32 * l)) = first
  refine Sat.forDown (fun i (r : OStream) => r.width = 0 ∧ r.uppercase = os.uppercase ∧
      first.length ≤ (numeral os.uppercase 16 (toNat x / 2 ^ (32 * i))).length ∧
      r.out = os.out ++ OStreamField os first ++
        (numeral os.uppercase 16 (toNat x / 2 ^ (32 * i))).drop first.length)
    (Nat.zero_le _) ?_ ?_ ?_
  · have := put_any os (hexText os.uppercase x[l])
    refine ⟨this.2.1, by rw [OStream.putHex, this.2.2], by rw [hf], ?_⟩
    rw [OStream.putHex, this.1, hf, List.drop_length, List.append_nil, hexText, ← hf, hdiv, dig_of_lt hl]
  · rintro i r _ hi ⟨hr1, hr2, hr0, hr3⟩
    have hin : i < n := by omega
    simp only [rd_ok hin, ok_bind, sat_ok]
    obtain ⟨hp1, hp2, hp3⟩ := put_padded r x[i]
    have hb : numeral os.uppercase 16 (toNat x / 2 ^ (32 * i)) =
        numeral os.uppercase 16 (toNat x / 2 ^ (32 * (i + 1))) ++ hexText8 os.uppercase x[i] := by
      rw [div_block_step x i, dig_of_lt hin, numeral_block _ _ (hlen (i + 1) (by omega)).1]
    refine ⟨hp2, by rw [hp3, hr2], ?_, ?_⟩
    · rw [hb, List.length_append]; omega
    · rw [hp1, hr3, hr2, hb, List.drop_append_of_le_length hr0]
      simp only [List.append_assoc]
  · rintro r ⟨hr1, hr2, hr0, hr3⟩
    simp only [Nat.mul_zero, Nat.pow_zero, Nat.div_one] at hr3
    exact ⟨hr1, hr3⟩

theorem forDown_top {σ : Type} (k : Nat) (s : σ) (f : Nat → σ → Exec σ) :
    forDown (k + 1) 0 s f = (do let s ← f k s; forDown k 0 s f) := by
  simp [forDown, forDownN]

/-- Printing a non-empty buffer from its end: the first character takes the field width. -/
theorem printLoop_any (buf : Vector Int cap) (text : List Int) (c : Int) (hfit : text.length + 1 ≤ cap)
    (hbuf : ∀ j (h : j < cap), j < text.length + 1 → buf[j] = (text ++ [c]).getD j 0) (os : OStream) :
    Sat (forDown (text.length + 1) 0 os fun i os => do
        let c ← rd buf i
        .ok (os.putText [c])) fun r => r.width = 0 ∧
          r.out = os.out ++ OStreamField os [c] ++ text.reverse := by
  rw [forDown_top]
  have hl : text.length < cap := by omega
  have hc : buf[text.length] = c := by
    rw [hbuf _ hl (by omega)]; simp [List.getD]
  simp only [rd_ok hl, ok_bind, hc]
  have := put_any os [c]
  refine Sat.mono (printLoop_spec buf text (by omega) ?_ (os.putText [c]) this.2.1) ?_
  · intro j hj hjl
    rw [hbuf j hj (by omega)]
    simp [List.getD, List.getElem?_append_left hjl]
  · rintro r ⟨h1, h2⟩
    exact ⟨h2, by rw [h1, OStream.putText, this.1]⟩

theorem streamDigits_any (cfg : Cfg) (bufSize : Nat) (hb0 : 0 < bufSize) (base : BitVec 32)
    (hb1 : 1 < base.toNat) (hb2 : base.toNat ≤ 256) (os : OStream) (hn : 2 ≤ n) (x : Aeu n)
    (hx : toNat x ≠ 0) (text : List Int)
    (htext : text = (lowDigits base.toNat (toNat x)
        (min (Nat.digits base.toNat (toNat x)).length bufSize)).reverse) :
    Sat (streamDigits cfg bufSize base os x) fun r => r.width = 0 ∧ r.out = os.out ++
      OStreamField os (text.take 1) ++ text.drop 1 := by
  unfold streamDigits
  refine Sat.bind (digitsLoop_spec cfg hn (by norm_num) base hb1 hb2 x
    (Vector.replicate bufSize 0) 0 (Nat.zero_le _)) ?_
  rintro ⟨buf, filled⟩ ⟨k, hk, hf, hfill⟩
  simp only [Nat.zero_add, Nat.sub_zero] at hk hf hfill ⊢
  have hpos : 0 < (Nat.digits base.toNat (toNat x)).length := by
    rw [List.length_pos_iff]
    exact Nat.digits_ne_nil_iff_ne_zero.mpr hx
  obtain ⟨k', rfl⟩ : ∃ k', k = k' + 1 := ⟨k - 1, by omega⟩
  have hl := lowDigits_succ base.toNat (toNat x) k'
  have := printLoop_any buf (lowDigits base.toNat (toNat x) k')
    (((toNat x / base.toNat ^ k' % base.toNat : Nat) : Int) + 48) (by rw [lowDigits_length]; omega)
    (by
      intro j hj hjl
      rw [lowDigits_length] at hjl
      rw [hfill j hj, if_pos ⟨by omega, by rw [lowDigits_length]; omega⟩, ← hl]
      simp) os
  rw [lowDigits_length, ← hf] at this
  refine Sat.mono this ?_
  rintro r ⟨hw', ho⟩
  refine ⟨hw', ?_⟩
  rw [ho, htext, ← hk, hl]
  simp

end Aeu
end AesiMP
