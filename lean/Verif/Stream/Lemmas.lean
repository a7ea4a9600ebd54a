import Verif.Stream.Spec
import Verif.Str.Props

set_option autoImplicit false

namespace C3.Stream

open C3.Str (sliceFrom sliceLen index_of)

variable {σ τ α : Type}

theorem sliceLen_eq {s : List α} {a n : Nat} (h : a + n ≤ s.length) : sliceLen s a n = some ((s.drop a).take n) := by
  unfold sliceLen; rw [if_neg (by omega), if_neg (by omega)]

theorem put_eq {buf l : List α} {off : Nat} (h : off + l.length ≤ buf.length) :
    put buf off l = some (buf.take off ++ (l ++ buf.drop (off + l.length))) := if_pos h

theorem put_length {buf l b : List α} {off : Nat} (h : put buf off l = some b) : b.length = buf.length := by
  unfold put at h
  split at h
  · rw [← Option.some.inj h]
    simp; omega
  · simp at h

theorem drop_take {l : List α} (n m : Nat) : (l.drop n).take m ++ l.drop (n + m) = l.drop n := by
  rw [← List.drop_drop, List.take_append_drop]

theorem source_honest : Honest (source (α := α)) (fun _ => True) Source.data := by
  refine ⟨⟨?_, ?_⟩, ?_, ?_, ?_, ?_⟩
  · intro s n _
    simp only [source]
    cases h : next s.plan with
    | mk a p =>
      cases a with
      | fault => exact ⟨_, _, rfl, trivial⟩
      | most m =>
        by_cases hd : s.data = []
        · simp only [if_pos hd]; exact ⟨_, _, rfl, hd⟩
        · simp only [if_neg hd]
          refine ⟨_, _, rfl, trivial, ?_, (List.take_append_drop ..).symm, ?_⟩
          · rw [List.length_take]; omega
          · intro hn e
            have := congrArg List.length e
            rw [List.length_take] at this
            have h2 := List.length_pos_iff.2 hd
            rw [List.length_nil] at this; omega
  · intro s _
    simp only [source]
    cases h : next s.plan with
    | mk a p =>
      cases a with
      | fault => exact ⟨_, _, rfl, trivial⟩
      | most m =>
        cases hd : s.data with
        | nil => exact ⟨_, _, rfl, rfl⟩
        | cons c l => exact ⟨_, _, rfl, trivial, rfl⟩
  · intro s t n _ h
    simp only [source] at h
    split at h
    · simp at h
    · split at h
      · have := (Prod.mk.inj (Option.some.inj h)).1
        exact ⟨trivial, by rw [← this]⟩
      · simp at h
  · intro s t n _ h
    simp only [source] at h
    split at h
    · have := (Prod.mk.inj (Option.some.inj h)).1
      exact ⟨trivial, by rw [← this]⟩
    · split at h <;> simp at h
  · intro s t _ h
    simp only [source] at h
    split at h
    · simp at h
    · split at h
      · have := (Prod.mk.inj (Option.some.inj h)).1
        exact ⟨trivial, by rw [← this]⟩
      · simp at h
  · intro s t _ h
    simp only [source] at h
    split at h
    · have := (Prod.mk.inj (Option.some.inj h)).1
      exact ⟨trivial, by rw [← this]⟩
    · split at h <;> simp at h

theorem sink_writes : Writes (sink (α := α)) (fun _ => True) Sink.data := by
  constructor
  · intro s l _
    simp only [sink]
    cases h : next s.plan with
    | mk a p =>
      cases a with
      | fault => exact ⟨_, _, rfl, trivial, rfl⟩
      | most m =>
        refine ⟨_, _, rfl, trivial, Nat.min_le_right .., ?_⟩
        show s.data ++ l.take m = _
        rw [List.take_eq_take_iff.2 (show min m l.length = min (min m l.length) l.length by omega)]
  · intro s c _
    simp only [sink]
    cases h : next s.plan with
    | mk a p =>
      cases a with
      | fault => exact ⟨_, _, rfl, trivial, rfl⟩
      | most m => exact ⟨_, _, rfl, trivial, rfl⟩

/-! ByteReader -/

theorem byteReader_reads : Reads (byteReader (α := α)) (fun _ => True) (fun s => s.bytes.drop s.index) := by
  constructor
  · intro s n _
    simp only [byteReader]
    by_cases h : s.index ≥ s.bytes.length
    · simp only [if_pos h]
      exact ⟨_, _, rfl, List.drop_eq_nil_of_le h⟩
    · simp only [if_neg h]
      by_cases h0 : min (s.bytes.length - s.index) n = 0
      · simp only [if_pos h0]
        exact ⟨_, _, rfl, trivial, Nat.zero_le _, rfl, fun hn => by omega⟩
      · simp only [if_neg h0]
        refine ⟨_, _, rfl, trivial, ?_, (drop_take ..).symm, ?_⟩
        · rw [List.length_take, List.length_drop]; omega
        · intro _ e
          have := congrArg List.length e
          rw [List.length_take, List.length_drop] at this
          simp at this; omega
  · intro s _
    simp only [byteReader]
    by_cases h : s.index ≥ s.bytes.length
    · simp only [if_pos h]
      exact ⟨_, _, rfl, List.drop_eq_nil_of_le h⟩
    · simp only [if_neg h]
      rw [List.getElem?_eq_getElem (by omega)]
      exact ⟨_, _, rfl, trivial, List.drop_eq_getElem_cons (by omega)⟩

theorem byteReader_honest : Honest (byteReader (α := α)) (fun _ => True) (fun s => s.bytes.drop s.index) := by
  refine ⟨byteReader_reads, ?_, ?_, ?_, ?_⟩
  · intro s t n _ h
    simp only [byteReader] at h
    split at h
    · rename_i h1
      have := (Prod.mk.inj (Option.some.inj h)).1
      exact ⟨trivial, by rw [← this]; exact List.drop_eq_nil_of_le h1⟩
    · split at h <;> simp at h
  · intro s t n _ h
    simp only [byteReader] at h
    split at h
    · simp at h
    · split at h <;> simp at h
  · intro s t _ h
    simp only [byteReader] at h
    split at h
    · rename_i h1
      have := (Prod.mk.inj (Option.some.inj h)).1
      exact ⟨trivial, by rw [← this]; exact List.drop_eq_nil_of_le h1⟩
    · split at h <;> simp at h
  · intro s t _ h
    simp only [byteReader] at h
    split at h
    · simp at h
    · split at h <;> simp at h

theorem byteReader_whole : Whole (byteReader (α := α)) (fun _ => True) (fun s => s.bytes.drop s.index) := by
  intro s n t l _ h
  simp only [byteReader] at h
  split at h
  · simp at h
  · split at h
    · rename_i h0
      have : l = [] := by simpa using ((Prod.mk.inj (Option.some.inj h)).2).symm
      rw [this, List.length_drop]; simp; omega
    · have : List.take (min (s.bytes.length - s.index) n) (List.drop s.index s.bytes) = l := by
        simpa using (Prod.mk.inj (Option.some.inj h)).2
      rw [← this, List.length_take, List.length_drop]; omega

/-! LimitReader -/

theorem limitReader_reads {R : In σ α} {good : σ → Prop} {rest : σ → List α} (h : Reads R good rest) :
    Reads (limitReader R) (fun s => good s.inner) (fun s => (rest s.inner).take s.limit) := by
  constructor
  · intro s n g
    simp only [limitReader]
    by_cases h0 : s.limit = 0
    · simp only [if_pos h0]
      exact ⟨_, _, rfl, by rw [h0]; rfl⟩
    · simp only [if_neg h0]
      obtain ⟨t, r, e, hr⟩ := h.read s.inner (min n s.limit) g
      rw [e]
      cases r with
      | ok l =>
        obtain ⟨g', hl, hs, hne⟩ := hr
        refine ⟨_, _, rfl, g', by omega, ?_, fun hn => hne (by omega)⟩
        show (rest s.inner).take s.limit = l ++ (rest t).take (s.limit - l.length)
        rw [hs, List.take_append]
        rw [List.take_of_length_le (by omega)]
      | eof => exact ⟨_, _, rfl, by show (rest s.inner).take s.limit = []; rw [hr]; simp⟩
      | fault => exact ⟨_, _, rfl, trivial⟩
  · intro s g
    simp only [limitReader]
    by_cases h0 : s.limit = 0
    · simp only [if_pos h0]
      exact ⟨_, _, rfl, by rw [h0]; rfl⟩
    · simp only [if_neg h0]
      obtain ⟨t, r, e, hr⟩ := h.byte s.inner g
      rw [e]
      cases r with
      | ok c =>
        obtain ⟨g', hs⟩ := hr
        refine ⟨_, _, rfl, g', ?_⟩
        show (rest s.inner).take s.limit = c :: (rest t).take (s.limit - 1)
        obtain ⟨k, hk⟩ : ∃ k, s.limit = k + 1 := ⟨s.limit - 1, by omega⟩
        rw [hs, hk]; simp
      | eof => exact ⟨_, _, rfl, by show (rest s.inner).take s.limit = []; rw [hr]; simp⟩
      | fault => exact ⟨_, _, rfl, trivial⟩

theorem limitReader_honest {R : In σ α} {good : σ → Prop} {rest : σ → List α} (h : Honest R good rest) :
    Honest (limitReader R) (fun s => good s.inner) (fun s => (rest s.inner).take s.limit) := by
  refine ⟨limitReader_reads h.reads, ?_, ?_, ?_, ?_⟩
  · intro s t n g e
    simp only [limitReader] at e
    split at e
    · rename_i h0
      have := (Prod.mk.inj (Option.some.inj e)).1
      rw [← this]; exact ⟨g, by rw [h0]; rfl⟩
    · split at e
      · simp at e
      · simp at e
      · rename_i i hi
        have := (Prod.mk.inj (Option.some.inj e)).1
        have hh := h.read_eof _ _ _ g hi
        rw [← this]; exact ⟨hh.1, by show (rest i).take _ = []; rw [hh.2]; simp⟩
      · simp at e
  · intro s t n g e
    simp only [limitReader] at e
    split at e
    · simp at e
    · split at e
      · simp at e
      · simp at e
      · simp at e
      · rename_i i hi
        have := (Prod.mk.inj (Option.some.inj e)).1
        have hh := h.read_fault _ _ _ g hi
        rw [← this]; exact ⟨hh.1, by show (rest i).take _ = _; rw [hh.2]⟩
  · intro s t g e
    simp only [limitReader] at e
    split at e
    · rename_i h0
      have := (Prod.mk.inj (Option.some.inj e)).1
      rw [← this]; exact ⟨g, by rw [h0]; rfl⟩
    · split at e
      · simp at e
      · simp at e
      · rename_i i hi
        have := (Prod.mk.inj (Option.some.inj e)).1
        have hh := h.byte_eof _ _ g hi
        rw [← this]; exact ⟨hh.1, by show (rest i).take _ = []; rw [hh.2]; simp⟩
      · simp at e
  · intro s t g e
    simp only [limitReader] at e
    split at e
    · simp at e
    · split at e
      · simp at e
      · simp at e
      · simp at e
      · rename_i i hi
        have := (Prod.mk.inj (Option.some.inj e)).1
        have hh := h.byte_fault _ _ g hi
        rw [← this]; exact ⟨hh.1, by show (rest i).take _ = _; rw [hh.2]⟩

/-! ReadBuffer -/

theorem ReadBuffer.rest_empty (rest : σ → List α) {s : ReadBuffer σ α} (h : s.readIdx = s.writeIdx) :
    s.rest rest = rest s.inner := by
  unfold ReadBuffer.rest
  rw [h, List.drop_eq_nil_of_le (by rw [List.length_take]; omega)]; rfl

theorem takeBuffered_spec {good : σ → Prop} {rest : σ → List α} {s : ReadBuffer σ α} (g : s.Good good) (n : Nat) :
    ∃ t l, takeBuffered s n = some (t, .ok l) ∧ t.Good good ∧ l.length ≤ n ∧ s.rest rest = l ++ t.rest rest ∧
      l.length = min (s.writeIdx - s.readIdx) n := by
  have h := g.le; have h2 := g.cap
  unfold takeBuffered
  simp only
  rw [sliceLen_eq (by omega)]
  have hl : (List.take (min (s.writeIdx - s.readIdx) n) (List.drop s.readIdx s.bytes)).length = min (s.writeIdx - s.readIdx) n := by
    rw [List.length_take, List.length_drop]; omega
  refine ⟨_, _, rfl, ⟨g.inner, g.size, by simp only; omega, g.cap⟩, by omega, ?_, hl⟩
  unfold ReadBuffer.rest
  rw [← List.append_assoc]
  congr 1
  show (s.bytes.take s.writeIdx).drop s.readIdx = _ ++ (s.bytes.take s.writeIdx).drop (s.readIdx + min (s.writeIdx - s.readIdx) n)
  rw [← drop_take s.readIdx (min (s.writeIdx - s.readIdx) n), List.drop_take, List.take_take]
  congr 2
  omega

theorem refill_spec {R : In σ α} {good : σ → Prop} {rest : σ → List α} (h : Reads R good rest) {s : ReadBuffer σ α} (g : s.Good good)
    (he : s.readIdx = s.writeIdx) :
    ∃ t r, refill R s = some (t, r) ∧
      match r with
      | .ok () => t.Good good ∧ t.readIdx = 0 ∧ t.writeIdx ≠ 0 ∧ t.rest rest = s.rest rest
      | .eof => s.rest rest = []
      | .fault => True := by
  obtain ⟨t, r, e, hr⟩ := h.read s.inner s.bytes.length g.inner
  unfold refill
  rw [e]
  cases r with
  | ok l =>
    obtain ⟨g', hl, hs, hne⟩ := hr
    have hlen : s.bytes.length ≠ 0 := fun e => g.size (List.eq_nil_of_length_eq_zero e)
    simp only
    rw [put_eq (by omega)]
    have hb : (List.take 0 s.bytes ++ (l ++ List.drop (0 + l.length) s.bytes)).take l.length = l := by simp
    refine ⟨_, _, rfl, ⟨g', ?_, Nat.zero_le _, ?_⟩, rfl, ?_, ?_⟩
    · intro e
      have := congrArg List.length e
      simp at this
      exact hne hlen this.1
    · simp
    · exact fun e => hne hlen (List.eq_nil_of_length_eq_zero e)
    · rw [ReadBuffer.rest_empty rest he, hs]
      show (List.take l.length _).drop 0 ++ rest t = _
      rw [hb]; rfl
  | eof => exact ⟨_, _, rfl, by rw [ReadBuffer.rest_empty rest he]; exact hr⟩
  | fault => exact ⟨_, _, rfl, trivial⟩

theorem takeByte_spec {good : σ → Prop} {rest : σ → List α} {s : ReadBuffer σ α} (g : s.Good good) (hne : s.readIdx ≠ s.writeIdx) :
    ∃ t c, takeByte s = some (t, .ok c) ∧ t.Good good ∧ s.rest rest = c :: t.rest rest := by
  have h := g.le; have h2 := g.cap
  unfold takeByte
  rw [if_neg hne, List.getElem?_eq_getElem (by omega)]
  refine ⟨_, _, rfl, ⟨g.inner, g.size, by simp only; omega, g.cap⟩, ?_⟩
  unfold ReadBuffer.rest
  rw [← List.cons_append]
  congr 1
  show (s.bytes.take s.writeIdx).drop s.readIdx = _ :: (s.bytes.take s.writeIdx).drop (s.readIdx + 1)
  rw [List.drop_eq_getElem_cons (by rw [List.length_take]; omega), List.getElem_take]

theorem readBuffer_reads {R : In σ α} {good : σ → Prop} {rest : σ → List α} (h : Reads R good rest) :
    Reads (readBuffer R) (ReadBuffer.Good good) (ReadBuffer.rest rest) := by
  have hlen : ∀ s : ReadBuffer σ α, s.Good good → s.bytes.length ≠ 0 := fun s g e => g.size (List.eq_nil_of_length_eq_zero e)
  constructor
  · intro s n g
    simp only [readBuffer]
    by_cases he : s.readIdx = s.writeIdx
    · rw [if_pos he]
      by_cases hd : s.readIdx = 0 ∧ n ≥ s.bytes.length
      · rw [if_pos hd]
        obtain ⟨t, r, e, hr⟩ := h.read s.inner n g.inner
        rw [e]
        refine ⟨_, _, rfl, ?_⟩
        cases r with
        | ok l =>
          obtain ⟨g', hl, hs, hne⟩ := hr
          refine ⟨⟨g', g.size, g.le, g.cap⟩, hl, ?_, hne⟩
          rw [ReadBuffer.rest_empty rest he, hs]
          congr 1
          exact (ReadBuffer.rest_empty rest (s := { s with inner := t }) he).symm
        | eof => show s.rest rest = []; rw [ReadBuffer.rest_empty rest he]; exact hr
        | fault => trivial
      · rw [if_neg hd]
        obtain ⟨t, r, e, hr⟩ := refill_spec h g he
        rw [e]
        cases r with
        | ok u =>
          obtain ⟨g', h0, hw, hrest⟩ := hr
          obtain ⟨v, l, e2, gv, hl, hs, hm⟩ := takeBuffered_spec (rest := rest) g' n
          refine ⟨v, .ok l, e2, gv, hl, by rw [← hrest]; exact hs, ?_⟩
          intro hn e
          rw [e] at hm
          simp only [List.length_nil] at hm
          omega
        | eof => exact ⟨_, _, rfl, hr⟩
        | fault => exact ⟨_, _, rfl, trivial⟩
    · rw [if_neg he]
      obtain ⟨v, l, e2, gv, hl, hs, hm⟩ := takeBuffered_spec (rest := rest) g n
      refine ⟨v, .ok l, e2, gv, hl, hs, ?_⟩
      intro hn e
      have := g.le
      rw [e] at hm
      simp only [List.length_nil] at hm
      omega
  · intro s g
    simp only [readBuffer]
    by_cases he : s.readIdx = s.writeIdx
    · rw [if_pos he]
      obtain ⟨t, r, e, hr⟩ := refill_spec h g he
      rw [e]
      cases r with
      | ok u =>
        obtain ⟨g', h0, hw, hrest⟩ := hr
        obtain ⟨v, c, e2, gv, hs⟩ := takeByte_spec (rest := rest) g' (by omega)
        exact ⟨v, .ok c, e2, gv, by rw [← hrest]; exact hs⟩
      | eof => exact ⟨_, _, rfl, hr⟩
      | fault => exact ⟨_, _, rfl, trivial⟩
    · rw [if_neg he]
      obtain ⟨v, c, e2, gv, hs⟩ := takeByte_spec (rest := rest) g he
      exact ⟨v, .ok c, e2, gv, hs⟩

/-! MultiReader -/

theorem drop_set_self {l : List σ} {i : Nat} {x : σ} (h : i < l.length) : (l.set i x).drop i = x :: l.drop (i + 1) := by
  rw [List.drop_eq_getElem_cons (by simpa using h), List.drop_set_of_lt (Nat.lt_succ_self _)]
  simp

theorem multiRead_spec {R : In σ α} {good : σ → Prop} {rest : σ → List α} (h : Reads R good rest) (n fuel : Nat) :
    ∀ s : MultiReader σ, s.Good good → s.readers.length - s.index + 1 ≤ fuel →
    ∃ t r, multiRead R n fuel s = some (t, r) ∧
      match r with
      | .ok l => t.Good good ∧ l.length ≤ n ∧ s.rest rest = l ++ t.rest rest ∧ (n ≠ 0 → l ≠ [])
      | .eof => s.rest rest = []
      | .fault => True := by
  induction fuel with
  | zero => intro s _ hf; omega
  | succ fuel ih =>
    intro s g hf
    obtain ⟨hi, hg⟩ := g
    have hd := List.drop_eq_getElem_cons hi
    have g0 : good s.readers[s.index] := hg _ (hd ▸ List.mem_cons_self)
    obtain ⟨t, r, e, hr⟩ := h.read s.readers[s.index] n g0
    have hrest : s.rest rest = rest s.readers[s.index] ++ (s.readers.drop (s.index + 1)).flatMap rest := by
      unfold MultiReader.rest; rw [hd, List.flatMap_cons]
    simp only [multiRead, List.getElem?_eq_getElem hi, e]
    cases r with
    | ok l =>
      obtain ⟨g', hl, hs, hne⟩ := hr
      refine ⟨_, _, rfl, ⟨by simpa using hi, ?_⟩, hl, ?_, hne⟩
      · intro x hx
        rw [drop_set_self hi] at hx
        rcases List.mem_cons.1 hx with rfl | hx
        · exact g'
        · exact hg x (by rw [hd]; exact List.mem_cons_of_mem _ hx)
      · rw [hrest, hs]
        unfold MultiReader.rest
        simp only
        rw [drop_set_self hi, List.flatMap_cons, List.append_assoc]
    | fault => exact ⟨_, _, rfl, trivial⟩
    | eof =>
      simp only
      have hr' : rest s.readers[s.index] = [] := hr
      have hset : (s.readers.set s.index t).drop (s.index + 1) = s.readers.drop (s.index + 1) := by
        rw [List.drop_set_of_lt (Nat.lt_succ_self _)]
      by_cases hlast : s.index + 1 ≥ s.readers.length
      · rw [if_pos hlast]
        refine ⟨_, _, rfl, ?_⟩
        show s.rest rest = []
        rw [hrest, hr', List.drop_eq_nil_of_le hlast]; rfl
      · rw [if_neg hlast]
        obtain ⟨u, r, e2, hr2⟩ := ih ⟨s.readers.set s.index t, s.index + 1⟩ ⟨by simp; omega, by
          intro x hx
          rw [hset] at hx
          exact hg x (by rw [hd]; exact List.mem_cons_of_mem _ hx)⟩ (by simp; omega)
        refine ⟨u, r, e2, ?_⟩
        have : s.rest rest = MultiReader.rest rest ⟨s.readers.set s.index t, s.index + 1⟩ := by
          rw [hrest, hr']
          unfold MultiReader.rest
          simp only
          rw [hset]; rfl
        rw [this]; exact hr2

theorem multiReader_reads {R : In σ α} {good : σ → Prop} {rest : σ → List α} (h : Reads R good rest) (dflt : α) :
    Reads (multiReader R dflt) (MultiReader.Good good) (MultiReader.rest rest) := by
  constructor
  · intro s n g
    exact multiRead_spec h n _ s g (Nat.le_refl _)
  · intro s g
    obtain ⟨t, r, e, hr⟩ := multiRead_spec h 1 _ s g (Nat.le_refl _)
    simp only [multiReader, e]
    cases r with
    | ok l =>
      obtain ⟨g', hl, hs, hne⟩ := hr
      refine ⟨_, _, rfl, g', ?_⟩
      match l, hl, hs, hne with
      | [], _, _, hne => exact absurd rfl (hne (by simp))
      | [c], _, hs, _ => exact hs
      | _ :: _ :: _, hl, _, _ => simp at hl
    | eof => exact ⟨_, _, rfl, hr⟩
    | fault => exact ⟨_, _, rfl, trivial⟩

/-! TeeReader -/

theorem teeRead_spec {R : In σ α} {W : Out τ α} {good : σ → Prop} {rest : σ → List α} {goodW : τ → Prop} {got : τ → List α}
    (h : Reads R good rest) (hw : Writes W goodW got) (s : σ × τ) (n : Nat) (g : good s.1) (gw : goodW s.2) :
    ∃ t r, teeRead R W s n = some (t, r) ∧ goodW t.2 ∧
      match r with
      | .ok l => good t.1 ∧ l.length ≤ n ∧ rest s.1 = l ++ rest t.1 ∧ (n ≠ 0 → l ≠ []) ∧ got t.2 = got s.2 ++ l
      | .eof => rest s.1 = [] ∧ got t.2 = got s.2 ∨ ∃ l u, R.read s.1 n = some (u, .ok l) ∧ ∃ v, W.write s.2 l = some (v, .eof)
      | .fault => True := by
  obtain ⟨t, r, e, hr⟩ := h.read s.1 n g
  unfold teeRead
  rw [e]
  cases r with
  | eof => exact ⟨_, _, rfl, gw, .inl ⟨hr, rfl⟩⟩
  | fault => exact ⟨_, _, rfl, gw, trivial⟩
  | ok l =>
    obtain ⟨g', hl, hs, hne⟩ := hr
    obtain ⟨v, q, ew, gv, hq⟩ := hw.write s.2 l gw
    simp only [ew]
    cases q with
    | ok k =>
      simp only
      by_cases hk : l.length = k
      · rw [if_neg (by omega)]
        refine ⟨_, _, rfl, gv, g', hl, hs, hne, ?_⟩
        rw [hq.2, ← hk, List.take_length]
      · rw [if_pos hk]; exact ⟨_, _, rfl, gv, trivial⟩
    | eof => exact ⟨_, _, rfl, gv, .inr ⟨l, t, rfl, v, ew⟩⟩
    | fault => exact ⟨_, _, rfl, gv, trivial⟩

end C3.Stream
