import Verif.Inet.LemmasPrint
/-
Property theorems C131-C135: internet addresses of the standard library.
-/
set_option autoImplicit false

namespace C3.Inet
open C3.Fmt (Byte ch txt)
open C3.Fmt.Std (numeral)
open Std

deriving instance DecidableEq for Except

/-! ### C131: reading IPv4 addresses -/

/-- C131, in full: `ipv4_from_str` accepts exactly the texts `a.b.c.d` of four decimal numbers below
256, and gives that address. -/
def C131_full : Prop :=
  ∀ (s : List Byte) (r : InetAddress), ipv4_from_str s = .ok r ↔
    ∃ a b c d, Quad s a b c d ∧ r = ⟨false, List.replicate 12 0 ++ [a, b, c, d]⟩

/-- C131: it does on texts whose numbers have at most nine digits. Missing: longer numbers, where the
arithmetic of `int` wraps around. -/
theorem C131_read_partial (s : List Byte) (hs : NoLong 9 (ch '.') s) (r : InetAddress) :
    ipv4_from_str s = .ok r ↔
      ∃ a b c d, Quad s a b c d ∧ r = ⟨false, List.replicate 12 0 ++ [a, b, c, d]⟩ := v4_iff s hs r

/-- C131: whatever the text, the answer is an address or `INVALID_IP_STRING`. -/
theorem C131_total (s : List Byte) : ipv4_from_str s ≠ .error .panic := v4_no_panic s 0 (-1) (zero false)

theorem C131_fails : ¬ C131_full := by
  intro h
  have hr : ipv4_from_str (txt ['4', '2', '9', '4', '9', '6', '7', '2', '9', '6', '.', '0', '.', '0', '.', '1']) =
      .ok ⟨false, List.replicate 12 0 ++ [0, 0, 0, 1]⟩ := by decide +kernel
  obtain ⟨a, b, c, d, ⟨A, B, C, D, ha, -, -, -, hs⟩, -⟩ := (h _ _).1 hr
  have h1 := congrArg (List.takeWhile (fun x => x != ch '.')) hs
  have h2 : (A ++ ch '.' :: (B ++ ch '.' :: (C ++ ch '.' :: D))).takeWhile (fun x => x != ch '.') = A := by
    have hA : ∀ x ∈ A, (x != ch '.') = true := by
      intro x hx
      have := ha.no_dot
      simp only [bne_iff_ne, ne_eq]
      rintro rfl; exact this hx
    rw [List.takeWhile_append_of_pos hA, List.takeWhile_cons]
    simp
  rw [h2] at h1
  have h3 : (txt ['4', '2', '9', '4', '9', '6', '7', '2', '9', '6', '.', '0', '.', '0', '.', '1']).takeWhile (fun x => x != ch '.') =
      txt ['4', '2', '9', '4', '9', '6', '7', '2', '9', '6'] := by decide +kernel
  rw [h3] at h1
  have h4 := ha.2.2
  rw [← h1] at h4
  have h5 : value decDigit 10 (txt ['4', '2', '9', '4', '9', '6', '7', '2', '9', '6']) = 4294967296 := by decide +kernel
  have := a.isLt
  omega

example : ipv4_from_str (txt ['1', '9', '2', '.', '1', '6', '8', '.', '0', '.', '1']) =
    .ok ⟨false, List.replicate 12 0 ++ [192, 168, 0, 1]⟩ := by decide +kernel
example : ipv4_from_str (txt ['1', '.', '2', '.', '3', '.', '2', '5', '6']) = .error .invalid := by decide +kernel

/-! ### C132: printing addresses, and reading them back -/

/-- C132. An IPv4 address is printed in dotted decimal, the count returned is the length of the text,
and `ipv4_from_str` reads it back. -/
theorem C132_roundtrip4 (a b c d : Byte) :
    ∃ s, Quad s a b c d ∧
      to_format ⟨false, List.replicate 12 0 ++ [a, b, c, d]⟩ = .ok (s, s.length) ∧
      ipv4_from_str s = .ok ⟨false, List.replicate 12 0 ++ [a, b, c, d]⟩ := by
  obtain ⟨ha, la⟩ := octet_numeral a
  obtain ⟨hb, lb⟩ := octet_numeral b
  obtain ⟨hc, lc⟩ := octet_numeral c
  obtain ⟨hd, ld⟩ := octet_numeral d
  exact ⟨_, ⟨_, _, _, _, ha, hb, hc, hd, rfl⟩, print4 a b c d, v4_complete ha hb hc hd la lb lc ld⟩

/-- C132. An IPv6 address is printed as eight groups of four hexadecimal digits, and `ipv6_from_str`
reads it back. -/
theorem C132_roundtrip6 (vs : List (BitVec 16)) (h : vs.length = 8) :
    ∃ s n, Groups 4 s vs ∧ s.length = 39 ∧
      to_format ⟨true, vs.flatMap fun v => [v.extractLsb' 8 8, v.extractLsb' 0 8]⟩ = .ok (s, n) ∧
      ipv6_from_str s = .ok ⟨true, vs.flatMap fun v => [v.extractLsb' 8 8, v.extractLsb' 0 8]⟩ := by
  match vs, h with
  | [v0, v1, v2, v3, v4, v5, v6, v7], _ =>
    obtain ⟨n, hn⟩ := print6 v0 v1 v2 v3 v4 v5 v6 v7
    have hg : Groups 4 _ [v0, v1, v2, v3, v4, v5, v6, v7] :=
      .more _ _ _ _ (four_group v0) (.more _ _ _ _ (four_group v1) (.more _ _ _ _ (four_group v2)
        (.more _ _ _ _ (four_group v3) (.more _ _ _ _ (four_group v4) (.more _ _ _ _ (four_group v5)
          (.more _ _ _ _ (four_group v6) (.one _ _ (four_group v7))))))))
    have l4 : ∀ v, (four v).length = 4 := by
      intro v
      have hl := numeral_length 16 (by decide) 3 v.toNat (by have := v.isLt; omega)
      simp [four, C3.Fmt.Std.zeros]; omega
    refine ⟨_, n, hg, ?_, hn, v6_complete _ _ (.full _ _ (hg.mono (by decide)) rfl)⟩
    simp [l4]

example : to_format ⟨false, List.replicate 12 0 ++ [192, 168, 0, 1]⟩ =
    .ok (txt ['1', '9', '2', '.', '1', '6', '8', '.', '0', '.', '1'], 11) := by decide +kernel

/-! ### C133: reading IPv6 addresses -/

/-- C133, in full: `ipv6_from_str` accepts exactly the texts of RFC 4291 section 2.2 (without a dotted
decimal part): eight groups of one to four hexadecimal digits, or groups around one `::` that stands
for at least one group of zeros. -/
def C133_full : Prop :=
  ∀ (s : List Byte) (r : InetAddress), ipv6_from_str s = .ok r ↔
    ∃ vs, Text6 4 1 s vs ∧ r = ⟨true, vs.flatMap fun v => [v.extractLsb' 8 8, v.extractLsb' 0 8]⟩

/-- C133: such texts are read correctly if `::` stands for at least two groups. Missing: a `::` that
stands for one group. -/
theorem C133_reads_partial (s : List Byte) (vs : List (BitVec 16)) (h : Text6 4 2 s vs) :
    ipv6_from_str s = .ok ⟨true, vs.flatMap fun v => [v.extractLsb' 8 8, v.extractLsb' 0 8]⟩ :=
  v6_complete s vs (h.mono (by decide))

/-- C133: on texts without a group of more than seven digits, without a single colon at the start
and without a single colon at the end, nothing else is accepted but that groups may have up to seven
digits. Missing: the other texts. -/
theorem C133_exact_partial (s : List Byte) (hl : NoLong 7 (ch ':') s)
    (hlead : ∀ c t, s = ch ':' :: c :: t → c = ch ':') (htrail : ∀ t c, s = t ++ [c, ch ':'] → c = ch ':')
    (r : InetAddress) :
    ipv6_from_str s = .ok r ↔
      ∃ vs, Text6 7 2 s vs ∧ r = ⟨true, vs.flatMap fun v => [v.extractLsb' 8 8, v.extractLsb' 0 8]⟩ := by
  constructor
  · intro h
    exact v6_sound s r hl hlead (fun ⟨t, c, h1, h2⟩ => h2 (htrail t c h1)) h
  · rintro ⟨vs, h, rfl⟩
    exact v6_complete s vs h

/-- C133: whatever the text, the answer is an address or `INVALID_IP_STRING`. -/
theorem C133_total (s : List Byte) : ipv6_from_str s ≠ .error .panic := by
  unfold ipv6_from_str
  split
  · simp
  · dsimp only
    generalize (if s.head? = some (ch ':') ∨ s.getLast? = some (ch ':') then wrap (9 - sections s) else wrap (8 - sections s)) = z
    split
    · simp
    · split
      · simp
      · exact v6_no_panic z s 0 false false (-1) _ (fun h => by cases h) (fun h => absurd rfl h)

/-- `1:2:3:4:5:6:7::` is rejected. -/
theorem C133_fails : ¬ C133_full := by
  intro h
  have hone : ∀ c v, hexDigit (ch c) = some v → v < 16 → Group 4 [ch c] (BitVec.ofNat 16 v) := by
    intro c v hc hv
    refine ⟨by simp, by simp, ?_, ?_⟩
    · intro x hx
      rw [List.mem_singleton] at hx
      rw [hx, hc]; simp
    · simp [value, hc]; omega
  have hg : Groups 4 (txt ['1', ':', '2', ':', '3', ':', '4', ':', '5', ':', '6', ':', '7']) [1, 2, 3, 4, 5, 6, 7] :=
    .more [ch '1'] _ _ _ (hone '1' 1 (by decide) (by decide)) (.more [ch '2'] _ _ _ (hone '2' 2 (by decide) (by decide))
      (.more [ch '3'] _ _ _ (hone '3' 3 (by decide) (by decide)) (.more [ch '4'] _ _ _ (hone '4' 4 (by decide) (by decide))
        (.more [ch '5'] _ _ _ (hone '5' 5 (by decide) (by decide)) (.more [ch '6'] _ _ _ (hone '6' 6 (by decide) (by decide))
          (.one [ch '7'] _ (hone '7' 7 (by decide) (by decide))))))))
  have := (h _ _).2 ⟨_, .short _ [] _ [] 1 (Or.inr hg) (Or.inl ⟨rfl, rfl⟩) (by decide) rfl, rfl⟩
  have h2 : ipv6_from_str (txt ['1', ':', '2', ':', '3', ':', '4', ':', '5', ':', '6', ':', '7'] ++ [ch ':', ch ':']) =
      .error .invalid := by decide +kernel
  rw [h2] at this
  cases this

/-- Texts that are no addresses are accepted: a colon in front of eight groups, one behind them, and a
number of 32 bits that is skipped because it wraps around to -1. -/
theorem C133_accepts_wrong :
    ipv6_from_str (txt [':', '1', ':', '2', ':', '3', ':', '4', ':', '5', ':', '6', ':', '7', ':', '8']) =
      ipv6_from_str (txt ['1', ':', '2', ':', '3', ':', '4', ':', '5', ':', '6', ':', '7', ':', '8']) ∧
    ipv6_from_str (txt ['1', ':', '2', ':', '3', ':', '4', ':', '5', ':', '6', ':', '7', ':', '8', ':']) =
      ipv6_from_str (txt ['1', ':', '2', ':', '3', ':', '4', ':', '5', ':', '6', ':', '7', ':', '8']) ∧
    ipv6_from_str (txt ['f', 'f', 'f', 'f', 'f', 'f', 'f', 'f', ':', '1', ':', '2', ':', '3', ':', '4', ':', '5', ':', '6',
      ':', '7', ':', '8']) =
      ipv6_from_str (txt ['1', ':', '2', ':', '3', ':', '4', ':', '5', ':', '6', ':', '7', ':', '8']) ∧
    (∃ r, ipv6_from_str (txt ['1', ':', '2', ':', '3', ':', '4', ':', '5', ':', '6', ':', '7', ':', '8']) = .ok r) ∧
    ipv6_from_str (txt ['1', '0', '0', '0', '0', '0', '0', '0', '1', ':', ':', '8']) =
      ipv6_from_str (txt ['1', ':', ':', '8']) := by
  refine ⟨?_, ?_, ?_, ⟨⟨true, [0, 1, 0, 2, 0, 3, 0, 4, 0, 5, 0, 6, 0, 7, 0, 8]⟩, ?_⟩, ?_⟩ <;> decide +kernel

example : ipv6_from_str (txt ['2', '0', '0', '1', ':', 'd', 'B', '8', ':', ':', '1']) =
    .ok ⟨true, [0x20, 0x01, 0x0d, 0xb8, 0, 0, 0, 0, 0, 0, 0, 0, 0, 0, 0, 1]⟩ := by decide +kernel

/-! ### C134: the classes of IPv4 addresses -/

/-- C134. For every IPv4 address the predicates are membership in the blocks of the registries:
127.0.0.0/8, 0.0.0.0/32, 169.254.0.0/16, the three private blocks, 224.0.0.0/4 and its parts. -/
theorem C134_classes4 (a : InetAddress) (h4 : a.is_ipv6 = false) (hl : a.bytes.length = 16) :
    (is_loopback a = true ↔ InBlock 32 0x7f000000 8 (ip4 a)) ∧
    (is_any_local a = true ↔ InBlock 32 0 32 (ip4 a)) ∧
    (is_link_local a = true ↔ InBlock 32 0xa9fe0000 16 (ip4 a)) ∧
    (is_site_local a = true ↔ InBlock 32 0x0a000000 8 (ip4 a) ∨ InBlock 32 0xac100000 12 (ip4 a) ∨
      InBlock 32 0xc0a80000 16 (ip4 a)) ∧
    (is_multicast a = true ↔ InBlock 32 0xe0000000 4 (ip4 a)) ∧
    (is_multicast_link_local a = true ↔ InBlock 32 0xe0000000 24 (ip4 a)) ∧
    (is_multicast_org_local a = true ↔ InBlock 32 0xefc00000 14 (ip4 a)) ∧
    (is_multicast_site_local a = true ↔ InBlock 32 0xefff0000 16 (ip4 a)) ∧
    (is_multicast_global a = true ↔ InBlock 32 0xe0000000 4 (ip4 a) ∧ ¬ InBlock 32 0xef000000 8 (ip4 a) ∧
      ¬ InBlock 32 0xe0000000 24 (ip4 a)) ∧
    is_multicast_node_local a = false := by
  have hv := last4 a hl
  have h0 := (oct a 0).isLt
  have h1 := (oct a 1).isLt
  have h2 := (oct a 2).isLt
  have h3 := (oct a 3).isLt
  have hb : ∀ (x : Byte) (n : Nat), n < 256 → ((x == BitVec.ofNat 8 n) = true ↔ x.toNat = n) := by
    intro x n hn
    rw [beq_iff_eq]
    constructor
    · rintro rfl; rw [BitVec.toNat_ofNat]; omega
    · intro h; apply BitVec.eq_of_toNat_eq; rw [h, BitVec.toNat_ofNat]; omega
  have hm : ∀ x : Byte, ((x &&& 0xF0#8) == 16#8) = true ↔ x.toNat / 16 = 1 := by decide +kernel
  have hmc : is_multicast a = true ↔ ip4 a / 2 ^ 28 = 14 := by
    unfold is_multicast
    rw [h4]
    simp only [Bool.false_eq_true, if_false]
    rw [and_high, BitVec.toNat_ofNat, Nat.mod_eq_of_lt (by omega), decide_eq_true_iff]
  refine ⟨?_, ?_, ?_, ?_, ?_, ?_, ?_, ?_, ?_, ?_⟩
  · simp only [is_loopback, h4, Bool.false_eq_true, if_false, hb _ 127 (by decide), InBlock]; omega
  · simp only [is_any_local, h4, Bool.false_eq_true, if_false, beq_iff_eq, InBlock]; omega
  · simp only [is_link_local, h4, Bool.false_eq_true, if_false, Bool.and_eq_true, hb _ 169 (by decide), hb _ 254 (by decide),
      InBlock]; omega
  · have e : is_site_local a = true ↔ ((oct a 0 == 10#8) = true ∨ ((oct a 0 == 172#8) = true ∧ ((oct a 1 &&& 0xF0#8) == 16#8) = true) ∨
        ((oct a 0 == 192#8) = true ∧ (oct a 1 == 168#8) = true)) := by
      simp only [is_site_local, h4, Bool.false_eq_true, if_false]
      cases oct a 0 == 10#8 <;> cases oct a 0 == 172#8 <;> cases (oct a 1 &&& 0xF0#8) == 16#8 <;>
        cases oct a 0 == 192#8 <;> cases oct a 1 == 168#8 <;> decide
    rw [e, hb _ 10 (by decide), hb _ 172 (by decide), hb _ 192 (by decide), hb _ 168 (by decide), hm]
    simp only [InBlock]; omega
  · rw [hmc]; simp only [InBlock]; omega
  · simp only [is_multicast_link_local, h4, Bool.false_eq_true, if_false, Bool.and_eq_true, hb _ 224 (by decide),
      hb _ 0 (by decide), InBlock]; omega
  · simp only [is_multicast_org_local, h4, Bool.false_eq_true, if_false, Bool.and_eq_true, hb _ 239 (by decide),
      decide_eq_true_iff, InBlock]; omega
  · simp only [is_multicast_site_local, h4, Bool.false_eq_true, if_false, Bool.and_eq_true, hb _ 239 (by decide),
      hb _ 255 (by decide), InBlock]; omega
  · have e : is_multicast_global a = true ↔ (224 ≤ (oct a 0).toNat ∧ (oct a 0).toNat ≤ 238 ∧
        ¬ ((oct a 0 == 224#8) = true ∧ (oct a 1 == 0#8) = true ∧ (oct a 2 == 0#8) = true)) := by
      simp only [is_multicast_global, h4, Bool.false_eq_true, if_false, Bool.and_eq_true, decide_eq_true_iff]
      cases oct a 0 == 224#8 <;> cases oct a 1 == 0#8 <;> cases oct a 2 == 0#8 <;> simp
    rw [e, hb _ 224 (by decide), hb _ 0 (by decide), hb _ 0 (by decide)]
    simp only [InBlock]; omega
  · simp [is_multicast_node_local, h4]

example : is_site_local ⟨false, List.replicate 12 0 ++ [172, 31, 0, 1]⟩ = true ∧
    is_site_local ⟨false, List.replicate 12 0 ++ [172, 32, 0, 1]⟩ = false ∧
    is_multicast_global ⟨false, List.replicate 12 0 ++ [224, 0, 1, 1]⟩ = true := by decide

/-! ### C135: the classes of IPv6 addresses -/

/-- C135, in full: for every IPv6 address, `is_link_local` is membership in fe80::/10, `is_site_local`
in fec0::/10, `is_multicast` in ff00::/8 (RFC 4291 section 2.4). -/
def C135_full : Prop :=
  ∀ a : InetAddress, a.is_ipv6 = true → a.bytes.length = 16 →
    (is_link_local a = true ↔ InBlock 128 (0xfe80 * 2 ^ 112) 10 (ip6 a)) ∧
    (is_site_local a = true ↔ InBlock 128 (0xfec0 * 2 ^ 112) 10 (ip6 a)) ∧
    (is_multicast a = true ↔ InBlock 128 (0xff00 * 2 ^ 112) 8 (ip6 a))

/-- C135: the loopback address and the unspecified address are told. Missing: all else. -/
theorem C135_single_partial (a : InetAddress) (h6 : a.is_ipv6 = true) :
    (is_loopback a = true ↔ InBlock 128 1 128 (ip6 a)) ∧ (is_any_local a = true ↔ InBlock 128 0 128 (ip6 a)) := by
  simp [is_loopback, is_any_local, h6, InBlock]

/-- C135: no address of these blocks is ever told to be in it, and no multicast address has a scope:
the predicates compare a group of 16 bits with a byte. -/
theorem C135_never (a : InetAddress) (h6 : a.is_ipv6 = true) (hl : a.bytes.length = 16) :
    (InBlock 128 (0xfe80 * 2 ^ 112) 10 (ip6 a) → is_link_local a = false) ∧
    (InBlock 128 (0xfec0 * 2 ^ 112) 10 (ip6 a) → is_site_local a = false) ∧
    (InBlock 128 (0xff00 * 2 ^ 112) 8 (ip6 a) → is_multicast a = false ∧ is_multicast_global a = false ∧
      is_multicast_node_local a = false ∧ is_multicast_site_local a = false ∧ is_multicast_org_local a = false ∧
      is_multicast_link_local a = false) := by
  have hw := first2 a hl
  have hne : ∀ n, n < 65536 → (word a.bytes 0).toNat ≠ n → (word a.bytes 0 == BitVec.ofNat 16 n) = false := by
    intro n hn h
    rw [beq_eq_false_iff_ne]
    intro e
    apply h; rw [e, BitVec.toNat_ofNat]; omega
  refine ⟨fun h => ?_, fun h => ?_, fun h => ?_⟩
  · have := hne 0xfa (by decide) (by simp only [InBlock] at h; omega)
    simp [is_link_local, h6, this]
  · have := hne 0xfe (by decide) (by simp only [InBlock] at h; omega)
    simp [is_site_local, h6, this]
  · have := hne 0xff (by decide) (by simp only [InBlock] at h; omega)
    simp [is_multicast, is_multicast_global, is_multicast_node_local, is_multicast_site_local, is_multicast_org_local,
      is_multicast_link_local, h6, this]

theorem C135_fails : ¬ C135_full := by
  intro h
  have := (h ⟨true, 0xff#8 :: 0x02#8 :: List.replicate 14 0⟩ rfl rfl).2.2
  revert this
  decide +kernel

example : is_multicast ⟨true, 0x00#8 :: 0xff#8 :: List.replicate 14 0⟩ = true := by decide

end C3.Inet
