import Verif.Props.Bezout
import Verif.Props.RefineQ
import Verif.Props.StreamExact
import Verif.Props.BinIO

/-!
# C77: every client program refines its specification over numbers

`Adaptive.ideal` (`SpecClient.lean`) runs a client over natural numbers and integers; `Adaptive.run`
runs it over the model of the library.  Wherever the specification promises a result, the library runs
without undefined behaviour and every object, every returned value or text and every stream holds
exactly what the specification says.
-/

namespace AesiMP
open Aesi
variable {n : Nat}

/-! ### The state -/

theorem ideal_setU (st : World) (n d : Nat) (x : Aeu n) :
    (st.setU n d x).ideal = st.ideal.setU n d (Aeu.toNat x) := by
  simp only [World.ideal, World.setU, Ideal.setU, Ideal.mk.injEq, and_true]
  funext k i
  split
  · rename_i h
    obtain ⟨rfl, rfl⟩ := h
    simp
  · rename_i h
    rw [if_neg fun h' => h ⟨h'.1.symm, h'.2⟩]

theorem ideal_setS (st : World) (n d : Nat) (x : Aesi n) :
    (st.setS n d x).ideal = st.ideal.setS n d (toInt x) := by
  simp only [World.ideal, World.setS, Ideal.setS, Ideal.mk.injEq, and_true, true_and]
  funext k i
  split
  · rename_i h
    obtain ⟨rfl, rfl⟩ := h
    simp
  · rename_i h
    rw [if_neg fun h' => h ⟨h'.1.symm, h'.2⟩]

theorem canonical_setS {st : World} (hst : st.Canonical) {n : Nat} (d : Nat) {x : Aesi n} (hx : Canon x) :
    (st.setS n d x).Canonical := by
  intro k i
  simp only [World.setS]
  split
  · rename_i h
    obtain ⟨rfl, rfl⟩ := h
    exact hx
  · exact hst k i

/-! ### Streams -/

theorem ostream_eq {os r : OStream} (h : SameFlags os r) {out : List Int} (hw : r.width = os.width)
    (ho : r.out = out) : r = { os with out := out } := by
  obtain ⟨h1, h2, h3, h4, h5⟩ := h
  cases r; cases os
  simp_all

theorem after_flags (cfg : Cfg) (buf : Nat) (os r : OStream) (a : Aeu n) (hp : PrintOk n os)
    (h : Aeu.streamOut cfg buf os a = .ok r) : SameFlags (os.after (Aeu.toNat a)) r := by
  unfold OStream.after
  obtain ⟨-, hp⟩ := hp
  split <;> rename_i hb
  · exact C61_decimal_flags_partial cfg buf os r a hb h
  · exact C61_octal_flags cfg buf os r a hb h
  · rw [hb] at hp
    obtain ⟨r', hr', hf⟩ := C61_hex_flags cfg buf hp os a hb
    rw [h] at hr'; cases hr'
    exact hf

theorem printOk_cases {os : OStream} (hp : PrintOk n os) :
    (os.basefield = .hex ∧ 1 ≤ n) ∨ (os.basefield = .other ∧ 2 ≤ n) ∨ (os.basefield = .oct ∧ 3 ≤ n) := by
  obtain ⟨-, hp⟩ := hp
  cases hb : os.basefield <;> simp_all

theorem after_width (os : OStream) (v : Nat) : (os.after v).width = os.width := by
  unfold OStream.after; split <;> (try split) <;> rfl

theorem print_refines (cfg : Cfg) (buf : Nat) (hb : Aeu.IsStreamBuf n buf) (os : OStream) (a : Aeu n)
    (hp : PrintOk n os) : Aeu.streamOut cfg buf os a = .ok { os.after (Aeu.toNat a) with
      out := os.out ++ (if os.showbase then basePrefix os.basefield.base else []) ++
        numeral os.uppercase os.basefield.base (Aeu.toNat a) } := by
  obtain ⟨r, hr, ho⟩ := C35_stream_partial cfg buf hb os hp.1 a (printOk_cases hp)
  obtain ⟨r', hr', hw, -⟩ := C35_width_exact cfg buf hb os a (printOk_cases hp)
  rw [hr] at hr'; cases hr'
  rw [hr]
  refine congrArg _ (ostream_eq (after_flags cfg buf os r a hp hr) (by rw [after_width, hw, hp.1]) ?_)
  rw [ho, List.append_assoc]
  rfl

theorem printS_refines (cfg : Cfg) (buf : Nat) (hb : Aeu.IsStreamBuf n buf) (os : OStream) (a : Aesi n)
    (hc : Canon a) (hp : PrintOk n os) : Aesi.streamOut cfg buf os a = .ok (
      if toInt a = 0 then { os with out := os.out ++ [48] } else
        { os.after (toInt a).natAbs with
          out := os.out ++ (if toInt a < 0 then [45] else []) ++
            (if os.showbase then basePrefix os.basefield.base else []) ++
            numeral os.uppercase os.basefield.base (toInt a).natAbs }) := by
  have hs := canon_sign hc
  unfold Aesi.streamOut
  by_cases h0 : toInt a = 0
  · rw [if_pos h0, if_neg (by simpa using hs.1.2 h0)]
    have hw := hp.1
    simp [OStream.putText, OStream.put, hw]
  · rw [if_neg h0, if_pos (by simpa using mt hs.1.1 h0)]
    by_cases hneg : toInt a < 0
    · rw [if_pos (hs.2.2.2 hneg), if_pos hneg]
      have e : os.putText [45] = { os with out := os.out ++ [45] } := by
        simp [OStream.putText, OStream.put, hp.1]
      have := print_refines cfg buf hb { os with out := os.out ++ [45] } a.base hp
      simp only [e]
      rw [this, natAbs_toInt h0]
      rcases os with ⟨bf, sb, up, ad, fi, wi, out⟩
      cases bf <;> simp only [OStream.after] <;> (try split) <;> rfl
    · rw [if_neg (mt hs.2.2.1 hneg), if_neg hneg, print_refines cfg buf hb os a.base hp, natAbs_toInt h0]
      simp

/-! ### Binary images -/

theorem imageIndex_self (host : Host) (be : Bool) {q : Nat} (hq : q < 4 * n) :
    imageIndex host be n (imageIndex host be n q) = q := by
  unfold imageIndex
  cases be <;> cases host <;> simp <;> omega

theorem written_image (host : Host) (be : Bool) (x : Aeu n) :
    Aeu.written host be x n = image host be n (Aeu.toNat x) := by
  apply List.ext_getElem
  · simp [image, Aeu.written_length]
  · intro p h1 h2
    have hp : p < 4 * n := by rw [Aeu.written_length] at h1; exact h1
    have := written_byte host be x hp
    rw [List.getD_eq_getElem?_getD, List.getElem?_eq_getElem h1, Option.getD_some] at this
    apply BitVec.eq_of_toNat_eq
    rw [this]
    simp only [image, List.getElem_map, List.getElem_range, BitVec.toNat_ofNat]
    unfold digitAt
    rw [Nat.mod_eq_of_lt (Nat.mod_lt _ (by norm_num))]
    rfl

theorem ofDigits_digit {b : Nat} (hb : 0 < b) : ∀ (l : List Nat), (∀ d ∈ l, d < b) → ∀ q,
    Nat.ofDigits b l / b ^ q % b = l.getD q 0
  | [], _, q => by simp
  | d :: l, h, q => by
      have hd := h d (by simp)
      rw [Nat.ofDigits_cons]
      cases q with
      | zero => simp [Nat.mod_eq_of_lt hd]
      | succ q =>
        rw [pow_succ, mul_comm (b ^ q) b, ← Nat.div_div_eq_div_mul, Nat.add_mul_div_left _ _ hb,
          Nat.div_eq_of_lt hd, Nat.zero_add]
        simpa using ofDigits_digit hb l (fun d hd => h d (by simp [hd])) q

theorem ofImage_byte (host : Host) (be : Bool) (bytes : List (BitVec 8)) {q : Nat} (hq : q < 4 * n) :
    byteOf (ofImage host be n bytes) q = (bytes.getD (imageIndex host be n q) 0).toNat := by
  unfold ofImage byteOf
  rw [ofDigits_digit (by norm_num) _ fun d hd => by
    obtain ⟨k, -, rfl⟩ := List.mem_map.1 hd; exact BitVec.isLt _]
  simp [hq]

theorem read_refines (host : Host) (be : Bool) (old : Aeu n) (src : IStream) (hf : src.fail = false)
    (hl : 4 * n ≤ src.data.length) : Sat (Aeu.readBinary host old src be) fun r =>
      Aeu.toNat r.1 = ofImage host be n src.data ∧ r.2 = ⟨src.data.drop (4 * n), false⟩ := by
  have e : src = ⟨src.data, false⟩ := by cases src; simp_all
  rw [e]
  refine (C33_read host old be src.data).mono fun r ⟨h1, h2, h3⟩ => ⟨?_, ?_⟩
  · refine eq_of_bytes (k := 4 * n) ?_ ?_ fun q hq => ?_
    · have := Aeu.toNat_lt r.1; rwa [show 8 * (4 * n) = 32 * n by ring]
    · have := Nat.ofDigits_lt_base_pow_length' (b := 254)
        (l := (List.range (4 * n)).map fun k => (src.data.getD (imageIndex host be n k) 0).toNat)
        fun d hd => by obtain ⟨k, -, rfl⟩ := List.mem_map.1 hd; exact BitVec.isLt _
      rw [List.length_map, List.length_range] at this
      rw [pow_mul]
      exact this
    · rw [ofImage_byte host be _ hq]
      have hlt : imageIndex host be n q < 4 * n := byteIndex_lt host be hq
      have := h1 _ hlt
      rw [← this]
      exact congrArg _ (imageIndex_self host be hq).symm
  · rcases r with ⟨x, d, f⟩
    have hff : f = false := by
      rcases f with _ | _
      · rfl
      · exact absurd (h3.1 rfl) (by omega)
    exact congrArg₂ IStream.mk h2 hff

/-! ### Calls and programs -/

/-- What the client may observe of its state, and the sign fields. -/
def Reaches (e : Exec World) (w : Ideal) : Prop := Sat e fun st => st.ideal = w ∧ st.Canonical

theorem Call.refines (env : Env) (st : World) (hst : st.Canonical) (c : Call) (w : Ideal)
    (h : c.ideal env st.ideal = some w) : Reaches (c.run env st) w := by
  cases c <;> simp only [Call.ideal] at h <;> simp only [Call.run]
  case setU k d e =>
    split at h
    swap
    · cases h
    rename_i hn
    obtain ⟨v, hv, rfl⟩ := Option.map_eq_some_iff.1 h
    obtain ⟨r, hr, hrv⟩ := e.refines env st hn v hv
    rw [hr]
    exact ⟨_, rfl, by rw [ideal_setU, hrv], hst⟩
  case setS k d e =>
    split at h
    swap
    · cases h
    rename_i hn
    obtain ⟨v, hv, rfl⟩ := Option.map_eq_some_iff.1 h
    obtain ⟨r, hr, hrv, hc⟩ := e.refines env st hst hn v hv
    rw [hr]
    exact ⟨_, rfl, by rw [ideal_setS, hrv], canonical_setS hst d hc⟩
  case ask q =>
    obtain ⟨v, hv, rfl⟩ := Option.map_eq_some_iff.1 h
    rw [q.refines env st hst v hv]
    exact ⟨_, rfl, rfl, hst⟩
  case postIncU k d a =>
    obtain rfl := Option.some.inj h
    obtain ⟨⟨x, y⟩, hr, h1, h2⟩ := C08_postInc (st.u k a)
    rw [hr]
    refine ⟨_, rfl, ?_, hst⟩
    rw [ideal_setU, ideal_setU, h2]
    have : Aeu.toNat x = wrap k ((Aeu.toNat (st.u k a) : Int) + 1) := by
      rw [h1, ← wrap_nat]; push_cast; rfl
    rw [this]; rfl
  case postDecU k d a =>
    obtain rfl := Option.some.inj h
    obtain ⟨⟨x, y⟩, hr, h1, h2⟩ := C08_postDec (st.u k a)
    rw [hr]
    refine ⟨_, rfl, ?_, hst⟩
    rw [ideal_setU, ideal_setU, h2]
    have : Aeu.toNat x = wrap k ((Aeu.toNat (st.u k a) : Int) - 1) := by
      unfold wrap; rw [← h1]; exact (Int.toNat_natCast _).symm
    rw [this]; rfl
  case postIncS k d a =>
    obtain ⟨⟨hn, hf⟩, rfl⟩ := given_eq_some.1 h
    obtain ⟨r, hr, h1, hc⟩ := inc_spec hn _ (hst k a) hf
    have e : Aesi.postInc (st.s k a) = .ok (r, st.s k a) := by simp [Aesi.postInc, hr]
    rw [e]
    refine ⟨_, rfl, ?_, canonical_setS (canonical_setS hst a hc) d (hst k a)⟩
    rw [ideal_setS, ideal_setS, h1]; rfl
  case postDecS k d a =>
    obtain ⟨⟨hn, hf⟩, rfl⟩ := given_eq_some.1 h
    obtain ⟨r, hr, h1, hc⟩ := dec_spec hn _ (hst k a) hf
    have e : Aesi.postDec (st.s k a) = .ok (r, st.s k a) := by simp [Aesi.postDec, hr]
    rw [e]
    refine ⟨_, rfl, ?_, canonical_setS (canonical_setS hst a hc) d (hst k a)⟩
    rw [ideal_setS, ideal_setS, h1]; rfl
  case divideU k a b q r =>
    obtain ⟨⟨hn, -, hb⟩, rfl⟩ := given_eq_some.1 h
    have hb : Aeu.toNat (st.u k b) ≠ 0 := hb
    obtain ⟨⟨x, y⟩, hr, h1, h2⟩ := C06_divide env.cfg hn (st.u k a) (st.u k b) hb
    rw [hr]
    refine ⟨_, rfl, ?_, hst⟩
    have hq : Aeu.toNat (st.u k a) / Aeu.toNat (st.u k b) = Aeu.toNat x ∧
        Aeu.toNat (st.u k a) % Aeu.toNat (st.u k b) = Aeu.toNat y := by
      refine (Nat.div_mod_unique (by omega)).2 ⟨?_, h2⟩
      rw [h1]; ring
    rw [ideal_setU, ideal_setU]
    simp only [← hq.1, ← hq.2]; rfl
  case dividePair k a b q r =>
    obtain ⟨⟨hn, hb⟩, rfl⟩ := given_eq_some.1 h
    have hb : Aeu.toNat (st.u k b) ≠ 0 := hb
    obtain ⟨⟨x, y⟩, hr, h1, h2⟩ := C06_divide env.cfg hn (st.u k a) (st.u k b) hb
    simp only [Aeu.dividePair, hr, ok_bind]
    refine ⟨_, rfl, ?_, hst⟩
    have hq : Aeu.toNat (st.u k a) / Aeu.toNat (st.u k b) = Aeu.toNat x ∧
        Aeu.toNat (st.u k a) % Aeu.toNat (st.u k b) = Aeu.toNat y := by
      refine (Nat.div_mod_unique (by omega)).2 ⟨?_, h2⟩
      rw [h1]; ring
    rw [ideal_setU, ideal_setU]
    simp only [← hq.1, ← hq.2]; rfl
  case divideS k a b q r =>
    obtain ⟨⟨hn, -, hb⟩, rfl⟩ := given_eq_some.1 h
    obtain ⟨⟨x, y⟩, hr, h1, h2, hc1, hc2⟩ :=
      divide_spec env.cfg hn (st.s k a) (st.s k b) (st.s k q) (st.s k r) hb
    rw [hr]
    refine ⟨_, rfl, ?_, canonical_setS (canonical_setS hst q hc1) r hc2⟩
    rw [ideal_setS, ideal_setS]
    simp only [h1, h2]; rfl
  case gcdExt k a b x y g =>
    obtain ⟨⟨hn, -, ha, hb⟩, rfl⟩ := given_eq_some.1 h
    obtain ⟨⟨g', x', y'⟩, hr, h1, -⟩ := C27_bezout env.cfg hn (st.u k a) (st.u k b)
    obtain ⟨⟨g'', x'', y''⟩, hr', h2, h3⟩ := gcdExt_exact env.cfg hn (st.u k a) (st.u k b) ha hb
    rw [hr] at hr'
    cases hr'
    rw [hr]
    refine ⟨_, rfl, ?_, hst⟩
    have e : ∀ (z : Aeu k) (Z : Int), (Aeu.toNat z : Int) ≡ Z [ZMOD (2 : Int) ^ (32 * k)] →
        Aeu.toNat z = wrap k Z := by
      intro z Z hz
      unfold wrap
      rw [← hz, Int.emod_eq_of_lt (Int.natCast_nonneg _) (by exact_mod_cast Aeu.toNat_lt z)]
      exact (Int.toNat_natCast _).symm
    rw [ideal_setU, ideal_setU, ideal_setU]
    simp only [h1, e _ _ h2, e _ _ h3]; rfl
  case swapU k a b =>
    obtain rfl := Option.some.inj h
    exact ⟨_, rfl, by rw [ideal_setU, ideal_setU]; rfl, hst⟩
  case swapS k a b =>
    obtain rfl := Option.some.inj h
    exact ⟨_, rfl, by rw [ideal_setS, ideal_setS]; rfl,
      canonical_setS (canonical_setS hst a (hst k b)) b (hst k a)⟩
  case printU k a buf =>
    obtain ⟨⟨hb, hp⟩, rfl⟩ := given_eq_some.1 h
    rw [print_refines env.cfg buf hb st.os (st.u k a) hp]
    exact ⟨_, rfl, rfl, hst⟩
  case printS k a buf =>
    obtain ⟨⟨hb, hp⟩, rfl⟩ := given_eq_some.1 h
    rw [printS_refines env.cfg buf hb st.os (st.s k a) (hst k a) hp]
    exact ⟨_, rfl, rfl, hst⟩
  case read k d be =>
    obtain ⟨⟨hf, hl⟩, rfl⟩ := given_eq_some.1 h
    obtain ⟨⟨x, s⟩, hr, h1, h2⟩ := read_refines env.host be (st.u k d) st.src hf hl
    rw [hr]
    refine ⟨_, rfl, ?_, hst⟩
    have := ideal_setU st k d x
    simp only at h1 h2
    subst h2
    rw [h1] at this
    exact congrArg (fun w : Ideal => { w with src := ⟨List.drop (4 * k) st.src.data, false⟩ }) this
  case write k a be =>
    obtain ⟨⟨hf, hl⟩, rfl⟩ := given_eq_some.1 h
    obtain ⟨r, hr, h1, h2, h3⟩ := Aeu.writeBinary_room env.host (st.u k a) st.sink hf be
    rw [hr]
    refine ⟨_, rfl, ?_, hst⟩
    have hl' : 4 * k ≤ st.sink.room := hl
    have hff : r.fail = false := by
      cases hr : r.fail
      · rfl
      · exact absurd (h2.1 hr) (by omega)
    have e : r = ⟨st.sink.out ++ image env.host be k (Aeu.toNat (st.u k a)), st.sink.room - 4 * k, false⟩ := by
      rw [List.take_of_length_le (by rw [Aeu.written_length]; exact hl'), written_image] at h1
      cases r; simp_all
    rw [e]; rfl

/-- **C77.**  Any client program of the library (numbers of every precision, signed and unsigned, built-in
and text conversions, observers, streams, binary files), in which each call may depend on everything the
client has seen, runs without undefined behaviour and leaves every object, the last result and the streams
exactly as the specification over numbers says, wherever that specification promises a result. -/
theorem C77_client_refinement (env : Env) (p : Adaptive) (st : World)
    (hst : ∀ n a, Canon (st.s n a)) (w : Ideal)
    (h : p.ideal env ⟨fun n a => Aeu.toNat (st.u n a), fun n a => toInt (st.s n a), st.last, st.os, st.sink,
      st.src⟩ = some w) :
    Sat (p.run env st) fun st' =>
      (∀ n a, Aeu.toNat (st'.u n a) = w.u n a) ∧ (∀ n a, toInt (st'.s n a) = w.s n a) ∧
      (∀ n a, Canon (st'.s n a)) ∧ st'.last = w.last ∧ st'.os = w.os ∧ st'.sink = w.sink ∧
      st'.src = w.src := by
  suffices Reaches (p.run env st) w from this.mono fun st' ⟨h1, h2⟩ => by subst h1; exact
    ⟨fun _ _ => rfl, fun _ _ => rfl, h2, rfl, rfl, rfl, rfl⟩
  change p.ideal env st.ideal = some w at h
  induction p generalizing st with
  | done => cases h; exact ⟨_, rfl, rfl, hst⟩
  | call c rest ih =>
    simp only [Adaptive.ideal, Option.bind_eq_some_iff] at h
    obtain ⟨w1, h1, h2⟩ := h
    obtain ⟨st1, hs1, rfl, hc1⟩ := c.refines env st hst w1 h1
    simp only [Adaptive.run, hs1, ok_bind]
    exact ih _ st1 hc1 h2

/-! ### Not vacuous -/

/-- A client: two numbers from texts, a product that wraps, a branch on a comparison, signed arithmetic on a
built-in value, output to a text stream and to a file. -/
private def demo : Adaptive :=
  .call (.setU 4 0 (.text .char [48, 120, 70, 70, 70, 70, 70, 70, 70, 70, 70, 70, 70, 70])) fun _ =>
  .call (.setU 4 1 (.mulU64 0 (BitVec.ofNat 64 (2 ^ 63)))) fun _ =>
  .call (.setU 4 2 (.bin .mul 1 0)) fun _ =>
  .call (.ask (.uCompare 4 4 2 0)) fun r =>
  .call (.setU 4 3 (if r = [1] then .shl 2 5 else .squareRoot 2)) fun _ =>
  .call (.setS 2 0 (.builtin .i32 (-7))) fun _ =>
  .call (.setS 2 1 (.bin .mul 0 0)) fun _ =>
  .call (.setS 2 1 (.bin .sub 0 1)) fun _ =>
  .call (.printS 2 1 21) fun _ =>
  .call (.setU 2 0 (.magnitude 1)) fun _ =>
  .call (.write 2 0 true) fun _ =>
  .call (.ask (.sText 2 1 .char 16#8 false true 30)) fun _ => .done

private def demoEnv : Env := ⟨⟨false, false, false⟩, .little, asciiAlnum⟩
private def demoStart : World where
  u _ _ := Aeu.ofNat _ 0
  s _ _ := ofInt _ 0
  last := []
  os := freshStream .other 0
  sink := ⟨[], 100, false⟩
  src := ⟨[], false⟩

example : ∀ n a, Canon (demoStart.s n a) := fun n a h => absurd rfl h
example : (demo.ideal demoEnv demoStart.ideal).map (fun w => (w.u 4 2, w.u 4 3, w.s 2 1)) =
    some ((2 ^ 48 - 1) ^ 2 * 2 ^ 63 % 2 ^ 128, Nat.sqrt ((2 ^ 48 - 1) ^ 2 * 2 ^ 63 % 2 ^ 128), -56) := by
  decide +kernel
example : (demo.ideal demoEnv demoStart.ideal).map (fun w => (w.os.out, w.sink.out, w.last)) =
    some ([45, 53, 54], [0, 0, 0, 0, 56, 0, 0, 0], [45, 48, 120, 51, 56]) := by
  decide +kernel

/-- GMP operands, a const factor, relations old and new, the pair of `divide` into its own operands. -/
private def demo2 : Adaptive :=
  .call (.setU 4 0 (.mpz (2 ^ 100 + 12345))) fun _ =>
  .call (.setU 4 1 (.mpzL .sub 1000 0)) fun _ =>
  .call (.setU 4 2 (.mulConst 1 64 (BitVec.ofNat 64 (2 ^ 64 - 1)))) fun _ =>
  .call (.ask (.uOldBuiltin .ge 4 0 32 7#32)) fun r =>
  .call (.setU 4 3 (if r = [1] then .mpzR .mod 2 97 else .reg 0)) fun _ =>
  .call (.dividePair 4 2 0 0 2) fun _ =>
  .call (.setS 4 0 (.builtin .i32 (-7))) fun _ =>
  .call (.setS 4 1 (.mpzL .mul (2 ^ 90) 0)) fun _ =>
  .call (.ask (.sRel .lt 4 1 0)) fun r =>
  .call (.ask (if r = [1] then .sOrderIntegral 4 1 .i32 5 else .uBlocks 4)) fun _ => .done

example : (demo2.ideal demoEnv demoStart.ideal).map (fun w => (w.u 4 0, w.u 4 2, w.u 4 3, w.s 4 1, w.last)) =
    let a := 2 ^ 100 + 12345
    let b := (2 ^ 128 + 1000 - a) * (2 ^ 64 - 1) % 2 ^ 128
    some (b / a, b % a, b % 97, -7 * 2 ^ 90, [-1]) := by
  decide +kernel

end AesiMP
