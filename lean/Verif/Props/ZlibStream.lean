import Verif.Model.ZlibStream
import Verif.Spec.ZlibStream

/-!
# C53: streaming compression and decompression
-/
namespace Verif.ZlibStream
open Verif

variable {σ τ : Type}

theorem Session.append {c : Codec σ} {s s' s'' : σ} {input rest rest' : Bytes} {k l : List Call}
    (h : Session c s input k s' rest) (h' : Session c s' rest l s'' rest') :
    Session c s input (k ++ l) s'' rest' := by
  induction h with
  | nil => exact h'
  | cons s input flush space calls t rest _ ih => exact Session.cons s input flush space _ _ _ (ih h')

theorem written_append (k l : List Call) : written (k ++ l) = written k ++ written l := by
  simp [written]

/-- the bytes the program holds: collected ones and those in the buffer -/
def held (size : Nat) (s : St σ) : Bytes := s.result ++ s.buffer.take (size - s.space)

/-- the record of a call -/
def callOf (c : Codec σ) (flush : Flush) (s : St σ) : Call :=
  ⟨flush, s.space, (c.call s.codec s.input s.space flush).written, (c.call s.codec s.input s.space flush).ret⟩

theorem session_one (c : Codec σ) (size : Nat) (flush : Flush) (s : St σ) :
    Session c s.codec s.input [callOf c flush s] (invoke c size flush s).2.codec (invoke c size flush s).2.input :=
  Session.cons _ _ _ _ _ _ _ (Session.nil _ _)

theorem invoke_spec (c : Codec σ) (size : Nat) (flush : Flush) (s : St σ) (hb : s.buffer.length = size)
    (hs : s.space ≤ size) :
    let s' := (invoke c size flush s).2
    held size s' = held size s ++ (callOf c flush s).written ∧ s'.buffer.length = size ∧ s'.space ≤ size ∧
    (invoke c size flush s).1 = (callOf c flush s).ret ∧ s'.result = s.result := by
  intro s'
  have hw := c.written_le s.codec s.input s.space flush
  generalize hW : (c.call s.codec s.input s.space flush).written = W at hw
  have hW' : (callOf c flush s).written = W := hW
  have hbuf : s'.buffer = s.buffer.take (size - s.space) ++ W ++ s.buffer.drop (size - s.space + W.length) := by
    show overwrite _ _ _ = _
    rw [hW]; rfl
  have hsp : s'.space = s.space - W.length := by
    show s.space - _ = _
    rw [hW]
  have htake : (s.buffer.take (size - s.space)).length = size - s.space := by
    rw [List.length_take]; omega
  refine ⟨?_, ?_, ?_, rfl, rfl⟩
  · unfold held
    have e : size - (s.space - W.length) = (s.buffer.take (size - s.space) ++ W).length := by
      rw [List.length_append, htake]; omega
    have hres : s'.result = s.result := rfl
    rw [hsp, hbuf, hW', e, List.take_left, hres, List.append_assoc]
  · rw [hbuf, List.length_append, List.length_append, htake, List.length_drop]
    omega
  · rw [hsp]; omega

theorem emptyFull_spec {size : Nat} (s : St σ) (h0 : 0 < size) (hb : s.buffer.length = size) (hs : s.space ≤ size) :
    held size (emptyFull size s) = held size s ∧ (emptyFull size s).buffer.length = size ∧
    0 < (emptyFull size s).space ∧ (emptyFull size s).space ≤ size ∧ (emptyFull size s).codec = s.codec ∧
    (emptyFull size s).input = s.input := by
  unfold emptyFull
  by_cases h : s.space = 0
  · rw [if_pos h]
    refine ⟨?_, hb, h0, Nat.le_refl _, rfl, rfl⟩
    unfold held
    simp [h]
  · rw [if_neg h]
    exact ⟨rfl, hb, by omega, hs, rfl, rfl⟩

/-- what the feeding loop does -/
theorem feed_spec (c : Codec σ) (size : Nat) (h0 : 0 < size) (fuel : Nat) (s : St σ) (hb : s.buffer.length = size)
    (hs : s.space ≤ size) (hp : 0 < s.space) (r : Out (St σ)) (hr : feed c size fuel s = some r) :
    (∃ s' calls, r = .ok s' ∧ Session c s.codec s.input calls s'.codec [] ∧ s'.input = [] ∧
      held size s' = held size s ++ written calls ∧ s'.buffer.length = size ∧ s'.space ≤ size ∧ 0 < s'.space ∧
      ∀ k ∈ calls, k.flush = .noFlush ∧ k.ret = .ok ∧ 0 < k.space ∧ k.space ≤ size) ∨
    (r = .throws .invalidArgument ∧ ∃ calls last t rest, Session c s.codec s.input (calls ++ [last]) t rest ∧
      last.ret ≠ .ok ∧ ∀ k ∈ calls ++ [last], k.flush = .noFlush ∧ 0 < k.space ∧ k.space ≤ size) := by
  induction fuel generalizing s with
  | zero => simp [feed] at hr
  | succ fuel ih =>
    rw [feed] at hr
    by_cases hin : s.input = []
    · rw [if_pos hin] at hr
      injection hr with hr
      subst hr
      left
      refine ⟨s, [], rfl, ?_, hin, by simp [written], hb, hs, hp, by simp⟩
      rw [hin]; exact Session.nil _ _
    · rw [if_neg hin] at hr
      obtain ⟨i1, i2, i3, i4, _⟩ := invoke_spec c size .noFlush s hb hs
      dsimp only at hr
      rw [i4] at hr
      by_cases hret : (callOf c .noFlush s).ret = .ok
      · rw [if_pos hret] at hr
        obtain ⟨e1, e2, e3, e4, e5, e6⟩ := emptyFull_spec _ h0 i2 i3
        have hsess := session_one c size .noFlush s
        rcases ih _ e2 e4 e3 hr with ⟨s', calls, h1, h2, h3, h4, h5, h6, h7, h8⟩ | ⟨h1, calls, last, t, rest, h2, h3, h4⟩
        · left
          refine ⟨s', callOf c .noFlush s :: calls, h1, ?_, h3, ?_, h5, h6, h7, ?_⟩
          · rw [e5, e6] at h2
            exact hsess.append h2
          · rw [h4, e1, i1]
            simp [written, List.append_assoc]
          · intro k hk
            rcases List.mem_cons.1 hk with rfl | hk
            · exact ⟨rfl, hret, hp, hs⟩
            · exact h8 k hk
        · right
          rw [e5, e6] at h2
          refine ⟨h1, callOf c .noFlush s :: calls, last, t, rest, hsess.append h2, h3, ?_⟩
          intro k hk
          rcases List.mem_cons.1 hk with rfl | hk
          · exact ⟨rfl, hp, hs⟩
          · exact h4 k hk
      · rw [if_neg hret] at hr
        injection hr with hr
        right
        refine ⟨hr.symm, [], callOf c .noFlush s, _, _, session_one c size .noFlush s, hret, ?_⟩
        intro k hk
        rw [List.nil_append, List.mem_singleton] at hk
        rw [hk]
        exact ⟨rfl, hp, hs⟩

/-- what the finishing loop does -/
theorem finish_spec (c : Codec σ) (size : Nat) (h0 : 0 < size) (fuel : Nat) (s : St σ) (hb : s.buffer.length = size)
    (hs : s.space ≤ size) (r : Out (St σ)) (hr : finish c size fuel s = some r) :
    ∃ calls last t rest, Session c s.codec s.input (calls ++ [last]) t rest ∧
      (∀ k ∈ calls, k.ret = .ok) ∧ (∀ k ∈ calls ++ [last], k.flush = .finish ∧ 0 < k.space ∧ k.space ≤ size) ∧
      ((∃ s', r = .ok s' ∧ last.ret = .streamEnd ∧ held size s' = held size s ++ written (calls ++ [last])) ∨
        (r = .throws .invalidArgument ∧ last.ret = .error)) := by
  induction fuel generalizing s with
  | zero => simp [finish] at hr
  | succ fuel ih =>
    rw [finish] at hr
    obtain ⟨e1, e2, e3, e4, e5, e6⟩ := emptyFull_spec s h0 hb hs
    obtain ⟨i1, i2, i3, i4, _⟩ := invoke_spec c size .finish (emptyFull size s) e2 e4
    have hsess := session_one c size .finish (emptyFull size s)
    rw [e5, e6] at hsess
    dsimp only at hr
    rw [i4] at hr
    cases hret : (callOf c .finish (emptyFull size s)).ret with
    | ok =>
      rw [hret] at hr
      obtain ⟨calls, last, t, rest, h1, h2, h3, h4⟩ := ih _ i2 i3 hr
      refine ⟨callOf c .finish (emptyFull size s) :: calls, last, t, rest, hsess.append h1, ?_, ?_, ?_⟩
      · intro k hk
        rcases List.mem_cons.1 hk with rfl | hk
        · exact hret
        · exact h2 k hk
      · intro k hk
        rcases List.mem_cons.1 hk with rfl | hk
        · exact ⟨rfl, e3, e4⟩
        · exact h3 k hk
      · rcases h4 with ⟨s', g1, g2, g3⟩ | h4
        · left
          refine ⟨s', g1, g2, ?_⟩
          rw [g3, i1, e1]
          simp [written, List.append_assoc]
        · exact Or.inr h4
    | streamEnd =>
      rw [hret] at hr
      injection hr with hr
      refine ⟨[], callOf c .finish (emptyFull size s), _, _, hsess, by simp, ?_, Or.inl ⟨_, hr.symm, hret, ?_⟩⟩
      · intro k hk
        rw [List.nil_append, List.mem_singleton] at hk
        rw [hk]
        exact ⟨rfl, e3, e4⟩
      · rw [i1, e1]
        simp [written]
    | error =>
      rw [hret] at hr
      injection hr with hr
      refine ⟨[], callOf c .finish (emptyFull size s), _, _, hsess, by simp, ?_, Or.inr ⟨hr.symm, hret⟩⟩
      intro k hk
      rw [List.nil_append, List.mem_singleton] at hk
      rw [hk]
      exact ⟨rfl, e3, e4⟩

/-- Compression, for every behaviour of the library: the bytes returned are all the bytes the library wrote, in
order, in a session that took the whole input and was finished; otherwise an invalid-argument error is thrown, and
only because the input is too long, the library could not be initialised or one of its calls failed. -/
theorem C53_compress (c : Codec σ) (size max : Nat) (buffer data : Bytes) (fuel : Nat) (h0 : 0 < size)
    (hb : buffer.length = size) (r : Out Bytes) (hr : compress c size max buffer data fuel = some r) :
    (∃ calls, r = .ok (written calls) ∧ data.length ≤ max ∧ c.initOk = true ∧ Compresses c size data calls) ∨
    (r = .throws .invalidArgument ∧ (max < data.length ∨ c.initOk = false ∨
      ∃ calls last t rest, Session c c.init data (calls ++ [last]) t rest ∧
        (last.ret = .error ∨ (last.ret = .streamEnd ∧ last.flush = .noFlush)))) := by
  unfold compress at hr
  by_cases hl : max < data.length
  · rw [if_pos hl] at hr
    injection hr with hr
    exact Or.inr ⟨hr.symm, Or.inl hl⟩
  rw [if_neg hl] at hr
  cases hi : c.initOk with
  | false =>
    rw [hi, if_neg (by simp)] at hr
    injection hr with hr
    exact Or.inr ⟨hr.symm, Or.inr (Or.inl rfl)⟩
  | true =>
    rw [hi, if_pos rfl] at hr
    cases hf : feed c size fuel ⟨c.init, data, buffer, size, []⟩ with
    | none => rw [hf] at hr; cases hr
    | some rf =>
      rw [hf] at hr
      rcases feed_spec c size h0 fuel _ hb (Nat.le_refl _) h0 rf hf with
        ⟨s', calls, h1, h2, h3, h4, h5, h6, h7, h8⟩ | ⟨h1, calls, last, t, rest, h2, h3, h4⟩
      · subst h1
        dsimp only at hr
        cases hg : finish c size fuel s' with
        | none => rw [hg] at hr; cases hr
        | some rg =>
          rw [hg] at hr
          obtain ⟨calls', last, t, rest, g1, g2, g3, g4⟩ := finish_spec c size h0 fuel s' h5 h6 rg hg
          rw [h3] at g1
          rcases g4 with ⟨s'', q1, q2, q3⟩ | ⟨q1, q2⟩
          · subst q1
            dsimp only at hr
            injection hr with hr
            left
            refine ⟨calls ++ calls' ++ [last], ?_, by omega, rfl, ?_⟩
            · rw [← hr]
              congr 1
              show held size s'' = _
              rw [q3, h4, List.append_assoc, List.append_assoc, written_append]
              simp [held, written]
            · refine ⟨calls, calls', last, s'.codec, t, rest, rfl, h2, g1, fun k hk => ⟨(h8 k hk).1, (h8 k hk).2.1⟩,
                fun k hk => ⟨(g3 k (List.mem_append_left _ hk)).1, g2 k hk⟩,
                (g3 last (List.mem_append_right _ (List.mem_singleton.2 rfl))).1, q2, ?_⟩
              intro k hk
              rw [List.append_assoc] at hk
              rcases List.mem_append.1 hk with hk | hk
              · exact (h8 k hk).2.2
              · exact (g3 k hk).2
          · subst q1
            dsimp only at hr
            injection hr with hr
            right
            refine ⟨hr.symm, Or.inr (Or.inr ⟨calls ++ calls', last, t, rest, ?_, Or.inl q2⟩)⟩
            rw [List.append_assoc]
            exact h2.append g1
      · subst h1
        dsimp only at hr
        injection hr with hr
        right
        refine ⟨hr.symm, Or.inr (Or.inr ⟨calls, last, t, rest, h2, ?_⟩)⟩
        have hfl := (h4 last (List.mem_append_right _ (List.mem_singleton.2 rfl))).1
        cases hlr : last.ret with
        | ok => exact absurd hlr h3
        | streamEnd => exact Or.inr ⟨rfl, hfl⟩
        | error => exact Or.inl rfl

/-- what the decompressing loop does -/
theorem inflateLoop_spec (c : Codec σ) (size : Nat) (fuel total : Nat) (s : St σ) (hb : s.buffer.length = size)
    (ht : s.result.length = total) (r : Out Bytes) (hr : inflateLoop c size fuel total s = some r) :
    ∃ calls last t rest, Session c s.codec s.input (calls ++ [last]) t rest ∧
      (∀ k ∈ calls, k.ret = .ok) ∧ (∀ k ∈ calls ++ [last], k.flush = .noFlush ∧ k.space = size) ∧
      ((r = .ok (s.result ++ written (calls ++ [last])) ∧ last.ret = .streamEnd) ∨
        (r = .throws .invalidArgument ∧ last.ret = .error)) := by
  induction fuel generalizing s total with
  | zero => simp [inflateLoop] at hr
  | succ fuel ih =>
    rw [inflateLoop] at hr
    obtain ⟨i1, i2, i3, i4, i5⟩ := invoke_spec c size .noFlush { s with space := size } hb (Nat.le_refl _)
    have hsess := session_one c size .noFlush { s with space := size }
    generalize hs' : (invoke c size .noFlush { s with space := size }).2 = s' at hr i1 i2 i3 i5 hsess
    generalize hk0 : callOf c .noFlush { s with space := size } = k0 at hr i1 i4 hsess
    have hkf : k0.flush = .noFlush ∧ k0.space = size := by rw [← hk0]; exact ⟨rfl, rfl⟩
    have hw : s'.buffer.take (size - s'.space) = k0.written := by
      have := i1
      unfold held at this
      dsimp only at this
      rw [i5] at this
      simpa using this
    have hlen : (s'.buffer.take (size - s'.space)).length = size - s'.space := by
      rw [List.length_take]; omega
    generalize hs2 : (if s'.result.length < total + (size - s'.space) then
      { s' with result := s'.result ++ s'.buffer.take (size - s'.space) } else s') = s2 at *
    have h2 : s2.result = s.result ++ k0.written ∧ s2.codec = s'.codec ∧ s2.input = s'.input ∧
        s2.buffer = s'.buffer := by
      rw [← hs2]
      split
      · exact ⟨by rw [i5, hw], rfl, rfl, rfl⟩
      · next hlt =>
        rw [i5, ht] at hlt
        have hz : size - s'.space = 0 := by omega
        have : k0.written = [] := by rw [← hw, hz]; simp
        refine ⟨?_, rfl, rfl, rfl⟩
        rw [this, i5, List.append_nil]
    have hr' : (match k0.ret with
        | .ok => inflateLoop c size fuel (total + (size - s'.space)) s2
        | .streamEnd => some (.ok s2.result)
        | .error => some (.throws .invalidArgument)) = some r := by
      rw [← hr, ← i4, ← hs2, ← hs']
      rfl
    clear hr
    cases hret : k0.ret with
    | ok =>
      rw [hret] at hr'
      obtain ⟨calls, last, t, rest, g1, g2, g3, g4⟩ := ih _ s2 (by rw [h2.2.2.2]; exact i2)
        (by rw [h2.1, List.length_append, ht, ← hw, hlen]) hr'
      rw [h2.2.1, h2.2.2.1] at g1
      refine ⟨k0 :: calls, last, t, rest, hsess.append g1, ?_, ?_, ?_⟩
      · intro k hk
        rcases List.mem_cons.1 hk with rfl | hk
        · exact hret
        · exact g2 k hk
      · intro k hk
        rcases List.mem_cons.1 hk with rfl | hk
        · exact hkf
        · exact g3 k hk
      · rcases g4 with ⟨q1, q2⟩ | g4
        · left
          refine ⟨?_, q2⟩
          rw [q1, h2.1]
          simp [written, List.append_assoc]
        · exact Or.inr g4
    | streamEnd =>
      rw [hret] at hr'
      injection hr' with hr'
      refine ⟨[], k0, _, _, hsess, by simp, ?_, Or.inl ⟨?_, hret⟩⟩
      · intro k hk
        rw [List.nil_append, List.mem_singleton] at hk
        rw [hk]; exact hkf
      · rw [← hr', h2.1]
        simp [written]
    | error =>
      rw [hret] at hr'
      injection hr' with hr'
      refine ⟨[], k0, _, _, hsess, by simp, ?_, Or.inr ⟨hr'.symm, hret⟩⟩
      intro k hk
      rw [List.nil_append, List.mem_singleton] at hk
      rw [hk]; exact hkf

/-- Decompression, for every behaviour of the library: the bytes returned are all the bytes the library wrote, in
order, in a session that ended with the end of the stream (input after that end is ignored); otherwise an
invalid-argument error is thrown, and only because the input is too long, the library could not be initialised or
its last call failed. -/
theorem C53_decompress (c : Codec σ) (size max : Nat) (buffer data : Bytes) (fuel : Nat)
    (hb : buffer.length = size) (r : Out Bytes) (hr : decompress c size max buffer data fuel = some r) :
    (∃ calls, r = .ok (written calls) ∧ data.length ≤ max ∧ c.initOk = true ∧ Decompresses c size data calls) ∨
    (r = .throws .invalidArgument ∧ (max < data.length ∨ c.initOk = false ∨
      ∃ calls last t rest, Session c c.init data (calls ++ [last]) t rest ∧ (∀ k ∈ calls, k.ret = .ok) ∧
        (∀ k ∈ calls ++ [last], k.flush = .noFlush ∧ k.space = size) ∧ last.ret = .error)) := by
  unfold decompress at hr
  by_cases hl : max < data.length
  · rw [if_pos hl] at hr
    injection hr with hr
    exact Or.inr ⟨hr.symm, Or.inl hl⟩
  rw [if_neg hl] at hr
  cases hi : c.initOk with
  | false =>
    rw [hi, if_neg (by simp)] at hr
    injection hr with hr
    exact Or.inr ⟨hr.symm, Or.inr (Or.inl rfl)⟩
  | true =>
    rw [hi, if_pos rfl] at hr
    obtain ⟨calls, last, t, rest, h1, h2, h3, h4⟩ := inflateLoop_spec c size fuel 0 _ hb rfl r hr
    rcases h4 with ⟨q1, q2⟩ | ⟨q1, q2⟩
    · left
      exact ⟨calls ++ [last], by rw [q1]; simp, by omega, rfl, calls, last, t, rest, rfl, h1, h2, q2, h3⟩
    · exact Or.inr ⟨q1, Or.inr (Or.inr ⟨calls, last, t, rest, h1, h2, h3, q2⟩)⟩

/-- Given that the library's decompressor inverts its compressor, decompressing compressed bytes returns the
original, provided the compressed bytes are not too many; if they are, it throws. -/
theorem C53_round_trip (d : Codec σ) (i : Codec τ) (size max : Nat) (buffer buffer' data out : Bytes)
    (fuel fuel' : Nat) (h0 : 0 < size) (hb : buffer.length = size) (hb' : buffer'.length = size)
    (hinv : Inverse d i size) (hi : i.initOk = true) (hc : compress d size max buffer data fuel = some (.ok out))
    (r : Out Bytes) (hr : decompress i size max buffer' out fuel' = some r) :
    (out.length ≤ max → r = .ok data) ∧ (max < out.length → r = .throws .invalidArgument) := by
  rcases C53_compress d size max buffer data fuel h0 hb _ hc with ⟨calls, h1, _, _, h2⟩ | ⟨h1, _⟩
  · injection h1 with h1
    subst h1
    constructor
    · intro hle
      rcases C53_decompress i size max buffer' _ fuel' hb' r hr with ⟨calls', g1, _, _, g2⟩ | ⟨_, g2⟩
      · obtain ⟨front, last, s, rest, q1, q2, q3, q4, q5⟩ := g2
        subst q1
        rw [g1, (hinv data calls h2 front last s rest q2 q3 q5).2 q4]
      · rcases g2 with g2 | g2 | ⟨front, last, s, rest, q2, q3, q4, q5⟩
        · omega
        · rw [hi] at g2; cases g2
        · exact absurd q5 (hinv data calls h2 front last s rest q2 q3 q4).1
    · intro hgt
      unfold decompress at hr
      rw [if_pos hgt] at hr
      injection hr with hr
      exact hr.symm
  · cases h1

theorem feed_terminates (c : Codec σ) (size : Nat) (h0 : 0 < size) (μ : σ → Bytes → Nat)
    (hμ : ∀ s input space flush, 0 < space → (input ≠ [] ∨ flush = .finish) →
      (c.call s input space flush).ret = .ok →
      μ (c.call s input space flush).state (input.drop (c.call s input space flush).taken) < μ s input)
    (fuel : Nat) (s : St σ) (hb : s.buffer.length = size) (hs : s.space ≤ size) (hp : 0 < s.space)
    (hf : μ s.codec s.input < fuel) :
    ∃ r, feed c size fuel s = some r ∧ ∀ s', r = .ok s' → μ s'.codec s'.input ≤ μ s.codec s.input := by
  induction fuel generalizing s with
  | zero => omega
  | succ fuel ih =>
    rw [feed]
    by_cases hin : s.input = []
    · rw [if_pos hin]
      refine ⟨_, rfl, fun s' h => ?_⟩
      injection h with h
      rw [h]; exact Nat.le_refl _
    · rw [if_neg hin]
      obtain ⟨_, i2, i3, i4, _⟩ := invoke_spec c size .noFlush s hb hs
      dsimp only
      rw [i4]
      by_cases hret : (callOf c .noFlush s).ret = .ok
      · rw [if_pos hret]
        obtain ⟨_, e2, e3, e4, e5, e6⟩ := emptyFull_spec _ h0 i2 i3
        have hd := hμ s.codec s.input s.space .noFlush hp (Or.inl hin) hret
        have hd' : μ (emptyFull size (invoke c size .noFlush s).2).codec
            (emptyFull size (invoke c size .noFlush s).2).input < μ s.codec s.input := by
          rw [e5, e6]; exact hd
        obtain ⟨r, g1, g2⟩ := ih _ e2 e4 e3 (by omega)
        exact ⟨r, g1, fun s' h => Nat.le_of_lt (Nat.lt_of_le_of_lt (g2 s' h) hd')⟩
      · rw [if_neg hret]
        exact ⟨_, rfl, fun s' h => by cases h⟩

theorem finish_terminates (c : Codec σ) (size : Nat) (h0 : 0 < size) (μ : σ → Bytes → Nat)
    (hμ : ∀ s input space flush, 0 < space → (input ≠ [] ∨ flush = .finish) →
      (c.call s input space flush).ret = .ok →
      μ (c.call s input space flush).state (input.drop (c.call s input space flush).taken) < μ s input)
    (fuel : Nat) (s : St σ) (hb : s.buffer.length = size) (hs : s.space ≤ size)
    (hf : μ s.codec s.input < fuel) : ∃ r, finish c size fuel s = some r := by
  induction fuel generalizing s with
  | zero => omega
  | succ fuel ih =>
    rw [finish]
    obtain ⟨_, e2, e3, e4, e5, e6⟩ := emptyFull_spec s h0 hb hs
    obtain ⟨_, i2, i3, i4, _⟩ := invoke_spec c size .finish (emptyFull size s) e2 e4
    dsimp only
    rw [i4]
    cases hret : (callOf c .finish (emptyFull size s)).ret with
    | ok =>
      have hd := hμ (emptyFull size s).codec (emptyFull size s).input (emptyFull size s).space .finish e3 (Or.inr rfl) hret
      exact ih _ i2 i3 (by
        refine Nat.lt_of_lt_of_le hd ?_
        rw [e5, e6]; omega)
    | streamEnd => exact ⟨_, rfl⟩
    | error => exact ⟨_, rfl⟩

theorem inflate_terminates (c : Codec σ) (size : Nat) (h0 : 0 < size) (μ : σ → Bytes → Nat)
    (hμ : ∀ s input space, 0 < space → (c.call s input space .noFlush).ret = .ok →
      μ (c.call s input space .noFlush).state (input.drop (c.call s input space .noFlush).taken) < μ s input)
    (fuel total : Nat) (s : St σ) (hf : μ s.codec s.input < fuel) : ∃ r, inflateLoop c size fuel total s = some r := by
  induction fuel generalizing s total with
  | zero => omega
  | succ fuel ih =>
    rw [inflateLoop]
    dsimp only
    have hi1 : (invoke c size .noFlush { s with space := size }).1 = (c.call s.codec s.input size .noFlush).ret := rfl
    rw [hi1]
    cases hret : (c.call s.codec s.input size .noFlush).ret with
    | ok =>
      have hd := hμ s.codec s.input size h0 hret
      apply ih
      split <;> exact Nat.lt_of_lt_of_le hd (by omega)
    | streamEnd => exact ⟨_, rfl⟩
    | error => exact ⟨_, rfl⟩

/-- Both functions end if the library makes progress: some quantity decreases with every call that returns `ok`
while there is space and something to do. -/
theorem C53_ends (d : Codec σ) (i : Codec τ) (size max : Nat) (buffer data : Bytes) (h0 : 0 < size)
    (hb : buffer.length = size) :
    (∀ μ : σ → Bytes → Nat, (∀ s input space flush, 0 < space → (input ≠ [] ∨ flush = .finish) →
        (d.call s input space flush).ret = .ok →
        μ (d.call s input space flush).state (input.drop (d.call s input space flush).taken) < μ s input) →
      ∀ fuel, μ d.init data < fuel → ∃ r, compress d size max buffer data fuel = some r) ∧
    (∀ μ : τ → Bytes → Nat, (∀ s input space, 0 < space → (i.call s input space .noFlush).ret = .ok →
        μ (i.call s input space .noFlush).state (input.drop (i.call s input space .noFlush).taken) < μ s input) →
      ∀ fuel, μ i.init data < fuel → ∃ r, decompress i size max buffer data fuel = some r) := by
  constructor
  · intro μ hμ fuel hf
    unfold compress
    by_cases hl : max < data.length
    · rw [if_pos hl]; exact ⟨_, rfl⟩
    rw [if_neg hl]
    cases hi : d.initOk with
    | false => exact ⟨_, rfl⟩
    | true =>
      rw [if_pos rfl]
      obtain ⟨r, h1, h2⟩ := feed_terminates d size h0 μ hμ fuel ⟨d.init, data, buffer, size, []⟩ hb (Nat.le_refl _) h0 hf
      rw [h1]
      rcases feed_spec d size h0 fuel _ hb (Nat.le_refl _) h0 r h1 with ⟨s', calls, g1, _, _, _, g5, g6, _, _⟩ | ⟨g1, _⟩
      · subst g1
        obtain ⟨r', h3⟩ := finish_terminates d size h0 μ hμ fuel s' g5 g6 (Nat.lt_of_le_of_lt (h2 s' rfl) hf)
        dsimp only
        rw [h3]
        cases r' <;> exact ⟨_, rfl⟩
      · subst g1; exact ⟨_, rfl⟩
  · intro μ hμ fuel hf
    unfold decompress
    by_cases hl : max < data.length
    · rw [if_pos hl]; exact ⟨_, rfl⟩
    rw [if_neg hl]
    cases hi : i.initOk with
    | false => exact ⟨_, rfl⟩
    | true =>
      rw [if_pos rfl]
      exact inflate_terminates i size h0 μ hμ fuel 0 _ hf

/-! ## A library that copies: it meets the promise -/

/-- a "compressor" that copies what fits -/
def copyDeflate : Codec Unit where
  init := ()
  initOk := true
  call := fun _ input space flush =>
    ⟨(), min space input.length, input.take space,
      if flush = .finish ∧ input.length ≤ space then .streamEnd else .ok⟩
  taken_le := fun _ _ _ _ => Nat.min_le_right _ _
  written_le := fun _ _ _ _ => List.length_take_le ..

/-- a "decompressor" that copies what fits; the stream ends with the input -/
def copyInflate : Codec Unit where
  init := ()
  initOk := true
  call := fun _ input space _ =>
    ⟨(), min space input.length, input.take space, if input.length ≤ space then .streamEnd else .ok⟩
  taken_le := fun _ _ _ _ => Nat.min_le_right _ _
  written_le := fun _ _ _ _ => List.length_take_le ..

theorem copy_session (c : Codec Unit)
    (hc : ∀ s input space flush, (c.call s input space flush).written ++
      input.drop (c.call s input space flush).taken = input) {s s' : Unit} {input rest : Bytes} {calls : List Call}
    (h : Session c s input calls s' rest) : written calls ++ rest = input := by
  induction h with
  | nil => rfl
  | cons s input flush space calls t rest _ ih =>
    simp only [written, List.flatMap_cons] at ih ⊢
    rw [List.append_assoc, ih, hc]

theorem take_drop_min (input : Bytes) (space : Nat) :
    input.take space ++ input.drop (min space input.length) = input := by
  rcases Nat.le_total space input.length with h | h
  · rw [Nat.min_eq_left h, List.take_append_drop]
  · rw [Nat.min_eq_right h, List.take_of_length_le h, List.drop_length, List.append_nil]

theorem copy_last {s t : Unit} {input rest : Bytes} {front : List Call} {last : Call}
    (h : Session copyInflate s input (front ++ [last]) t rest) :
    last.ret ≠ .error ∧ (last.ret = .streamEnd → rest = []) := by
  generalize hl : front ++ [last] = calls at h
  induction h generalizing front with
  | nil => simp at hl
  | cons s input flush space calls t rest h ih =>
    cases front with
    | cons a front =>
      rw [List.cons_append] at hl
      injection hl with _ hl
      exact ih hl
    | nil =>
      rw [List.nil_append] at hl
      injection hl with h1 h2
      subst h1
      subst h2
      cases h
      show (if input.length ≤ space then Ret.streamEnd else Ret.ok) ≠ .error ∧
        ((if input.length ≤ space then Ret.streamEnd else Ret.ok) = .streamEnd →
          input.drop (min space input.length) = [])
      split
      · next h => exact ⟨by simp, fun _ => by rw [Nat.min_eq_right h, List.drop_length]⟩
      · exact ⟨by simp, fun h => by cases h⟩

theorem copy_inverse (size : Nat) : Inverse copyDeflate copyInflate size := by
  intro data calls hc front last s rest hs hfront hall
  obtain ⟨cf, cb, cl, s1, s2, r2, e, h1, h2, _⟩ := hc
  have hd : written calls = data := by
    rw [e, List.append_assoc, written_append]
    have a1 := copy_session copyDeflate (fun _ input space _ => take_drop_min input space) h1
    have a2 := copy_session copyDeflate (fun _ input space _ => take_drop_min input space) h2
    rw [List.append_nil] at a1
    rw [a1, (List.append_eq_nil_iff.1 a2).1, List.append_nil]
  obtain ⟨g1, g2⟩ := copy_last hs
  refine ⟨g1, fun h => ?_⟩
  have a3 := copy_session copyInflate (fun _ input space _ => take_drop_min input space) hs
  rw [g2 h, List.append_nil, hd] at a3
  exact a3

example : compress copyDeflate 2 100 [9, 9] [1, 2, 3, 4, 5] 50 = some (.ok [1, 2, 3, 4, 5]) ∧
    decompress copyInflate 2 100 [9, 9] [1, 2, 3, 4, 5] 50 = some (.ok [1, 2, 3, 4, 5]) ∧
    compress copyDeflate 2 4 [9, 9] [1, 2, 3, 4, 5] 50 = some (.throws .invalidArgument) := by
  decide +kernel

end Verif.ZlibStream
