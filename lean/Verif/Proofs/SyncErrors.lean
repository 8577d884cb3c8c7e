import Verif.Spec.ReadErrors
import Verif.Proofs.SyncInterrupt
/-!
# The synchronizer over readers that do anything
-/
namespace Ccsds
open Spec
namespace Sync

/-- What is left to be read. -/
def restOf (b : Bytes) : List U8 := b.cache.reverse ++ evBytes b.reader.script

/-- `N` bytes in all; the ends of file still to come are among `E`. -/
def EndsIn (E : List Nat) (N : Nat) (r : Reader) : Prop :=
  (evBytes r.script).length ≤ N ∧ ∀ k ∈ endsFrom r.tail (N - (evBytes r.script).length) r.script, k ∈ E

theorem evBytes_cons_data (c : List U8) (es : List Ev) : evBytes (.data c :: es) = c ++ evBytes es := rfl
theorem evBytes_cons_err (k : IoKind) (es : List Ev) : evBytes (.err k :: es) = evBytes es := rfl

theorem gnext {E : List Nat} {N : Nat} {b b' : Bytes} {res : Except IoKind U8} (hE : EndsIn E N b.reader) (h : b.next = (res, b')) :
    EndsIn E N b'.reader ∧
    match res with
    | .ok x => restOf b = x :: restOf b' ∧ b'.cache.length = b.cache.length - 1
    | .error _ => b.cache = [] ∧ b'.cache = [] ∧ restOf b' = restOf b := by
  unfold Bytes.next at h
  cases hc : b.cache.getLast? with
  | some y =>
    rw [hc] at h
    simp only [Prod.mk.injEq] at h
    obtain ⟨rfl, rfl⟩ := h
    refine ⟨hE, ?_, by simp⟩
    have hne : b.cache ≠ [] := by intro e; simp [e] at hc
    have e : b.cache = b.cache.dropLast ++ [y] := by
      rw [List.getLast?_eq_some_getLast hne, Option.some.injEq] at hc
      rw [← hc, List.dropLast_concat_getLast]
    unfold restOf
    conv => lhs; rw [e]
    simp
  | none =>
    have hce : b.cache = [] := by simpa using hc
    rw [hc] at h
    unfold Reader.read at h
    obtain ⟨hl, hE⟩ := hE
    cases hs : b.reader.script with
    | nil =>
      rw [hs] at h
      cases ht : b.reader.tail <;> rw [ht] at h <;> simp at h <;> obtain ⟨rfl, rfl⟩ := h <;> exact ⟨⟨hl, hE⟩, hce, hce, rfl⟩
    | cons e es =>
      rw [hs] at h hl hE
      cases e with
      | err k =>
        simp only [Prod.mk.injEq] at h
        obtain ⟨rfl, rfl⟩ := h
        refine ⟨⟨hl, ?_⟩, hce, hce, by simp [restOf, hs, Ev.bytes]⟩
        intro j hj
        apply hE j
        rw [evBytes_cons_err, endsFrom]
        split
        · exact List.mem_cons_of_mem _ hj
        · exact hj
      | data c =>
        rw [evBytes_cons_data] at hl hE
        match c with
        | [] =>
          simp at h
          obtain ⟨rfl, rfl⟩ := h
          refine ⟨⟨by simpa using hl, ?_⟩, hce, hce, by simp [restOf, hs, Ev.bytes]⟩
          intro j hj
          apply hE j
          rw [endsFrom, if_pos rfl]
          exact List.mem_cons_of_mem _ hj
        | [x] =>
          simp at h
          obtain ⟨rfl, rfl⟩ := h
          simp only [List.length_append, List.length_cons, List.length_nil, Nat.zero_add] at hl hE
          refine ⟨⟨by simp only; omega, ?_⟩, by simp [restOf, hs, hce, Ev.bytes], by simp [hce]⟩
          intro j hj
          apply hE j
          rw [endsFrom, if_neg (by simp)]
          simp only [List.length_cons, List.length_nil, Nat.zero_add]
          rw [show N - (1 + (evBytes es).length) + 1 = N - (evBytes es).length from by omega]
          exact hj
        | x :: y :: c =>
          simp at h
          obtain ⟨rfl, rfl⟩ := h
          simp only [List.length_append, List.length_cons] at hl hE
          refine ⟨⟨by simp [Ev.bytes]; omega, ?_⟩, by simp [restOf, hs, hce, Ev.bytes], by simp [hce]⟩
          intro j hj
          apply hE j
          rw [endsFrom, if_neg (by simp)]
          simp only [evBytes_cons_data, List.length_append, List.length_cons, endsFrom] at hj ⊢
          rw [if_neg (by simp)] at hj
          rw [show N - (c.length + 1 + 1 + (evBytes es).length) + (c.length + 1 + 1) = N - (c.length + 1 + (evBytes es).length) + (c.length + 1) from by omega]
          exact hj

/-- What comparing one pattern does, on every reader. -/
theorem gattempt {E : List Nat} {N : Nat} (pm : List (U8 × U8)) : ∀ (w : List U8) (b : Bytes), EndsIn E N b.reader →
    match attempt pm w b with
    | .mismatch w' b' => EndsIn E N b'.reader ∧ ∃ j, 1 ≤ j ∧ j ≤ pm.length ∧ j ≤ (restOf b).length ∧ w' = w ++ (restOf b).take j ∧ restOf b' = (restOf b).drop j ∧
        b'.cache.length = b.cache.length - j ∧ ¬ MatchPM (pm.take j) (restOf b)
    | .io _ b' => EndsIn E N b'.reader ∧ ∃ j, j < pm.length ∧ j ≤ (restOf b).length ∧ restOf b' = (restOf b).drop j ∧ b'.cache = [] ∧ b.cache.length ≤ j
    | .found w' b' => EndsIn E N b'.reader ∧ pm.length ≤ (restOf b).length ∧ w' = w ++ (restOf b).take pm.length ∧ restOf b' = (restOf b).drop pm.length ∧
        b'.cache.length = b.cache.length - pm.length ∧ MatchPM pm (restOf b) := by
  induction pm with
  | nil => intro w b h; simp [attempt, h, MatchPM]
  | cons e pm ih =>
    obtain ⟨p, m⟩ := e
    intro w b hE
    rw [attempt]
    cases hn : b.next with
    | mk res b1 =>
    obtain ⟨hE1, hr⟩ := gnext hE hn
    cases res with
    | error k =>
      simp only
      obtain ⟨h1, h2, h3⟩ := hr
      exact ⟨hE1, 0, by simp, by simp, by simpa using h3, h2, by simp [h1]⟩
    | ok x =>
      obtain ⟨h1, h2⟩ := hr
      simp only
      by_cases hx : x &&& m = p
      · rw [if_neg (by simpa using hx)]
        have := ih (w ++ [x]) b1 hE1
        split
        · rename_i w' b' heq
          rw [heq] at this
          obtain ⟨g, j, a1, a2, a3, a4, a5, a6, a7⟩ := this
          refine ⟨g, j + 1, by omega, by simp; omega, by rw [h1]; simp; omega, by rw [a4, h1]; simp, by rw [a5, h1]; simp, by omega, ?_⟩
          rw [h1]
          intro hm; exact a7 hm.2
        · rename_i k b' heq
          rw [heq] at this
          obtain ⟨g, j, a1, a2, a3, a4, a5⟩ := this
          exact ⟨g, j + 1, by simp; omega, by rw [h1]; simp; omega, by rw [a3, h1]; simp, a4, by omega⟩
        · rename_i w' b' heq
          rw [heq] at this
          obtain ⟨g, a1, a2, a3, a4, a5⟩ := this
          exact ⟨g, by rw [h1]; simp; omega, by rw [a2, h1]; simp, by rw [a3, h1]; simp, by simp only [List.length_cons]; omega, by rw [h1]; exact ⟨hx, a5⟩⟩
      · rw [if_pos (by simpa using hx)]
        refine ⟨hE1, 1, by omega, by simp, by rw [h1]; simp, by rw [h1]; simp, by rw [h1]; simp, h2, ?_⟩
        rw [h1]
        intro hm; exact hx hm.1

theorem greadExactGo {E : List Nat} {N : Nat} (t : Tail) (es : List Ev) (n : Nat) (acc : List U8) (hE : EndsIn E N ⟨es, t⟩) :
    ∃ got, (Reader.readExactGo t es n acc).2.1 = acc ++ got ∧ evBytes es = got ++ evBytes (Reader.readExactGo t es n acc).2.2 ∧
      EndsIn E N ⟨(Reader.readExactGo t es n acc).2.2, t⟩ ∧
      ((Reader.readExactGo t es n acc).1 = none → got.length = n) ∧
      ∀ k, (Reader.readExactGo t es n acc).1 = some k →
        got.length < n ∧ k ≠ .interrupted ∧ (k = .unexpectedEof → N - (evBytes (Reader.readExactGo t es n acc).2.2).length ∈ E) := by
  fun_induction Reader.readExactGo t es n acc with
  | case1 es acc => exact ⟨[], by simp, by simp, hE, by simp, by simp⟩
  | case2 n acc h =>
    refine ⟨[], by simp, by simp, hE, by simp, ?_⟩
    rintro k hk
    cases hk
    refine ⟨by simp, by simp, ?_⟩
    intro _
    subst h
    have := hE.2
    simp only [evBytes, List.flatMap_nil, List.length_nil, endsFrom, if_true, List.mem_singleton, forall_eq] at this ⊢
    exact this
  | case3 n acc c h => exact ⟨[], by simp, by simp, hE, by simp, by rintro k hk; cases hk; simp⟩
  | case4 n acc rest ih =>
    obtain ⟨got, a1, a2, a3, a4⟩ := ih (by
      obtain ⟨h1, h2⟩ := hE
      refine ⟨h1, ?_⟩
      intro j hj
      apply h2
      rw [endsFrom, if_neg (by simp)]
      exact hj)
    exact ⟨got, a1, a2, a3, a4⟩
  | case5 k rest n acc hk =>
    obtain ⟨h1, h2⟩ := hE
    simp only at h1 h2
    rw [evBytes_cons_err] at h1 h2
    refine ⟨[], by simp, by simp [Ev.bytes], ⟨h1, ?_⟩, by simp, ?_⟩
    · intro j hj
      apply h2
      rw [endsFrom]
      split
      · exact List.mem_cons_of_mem _ hj
      · exact hj
    · rintro k' hk'
      cases hk'
      refine ⟨by simp, hk, ?_⟩
      rintro rfl
      apply h2
      rw [endsFrom, if_pos rfl]
      exact List.mem_cons_self
  | case6 rest n acc =>
    obtain ⟨h1, h2⟩ := hE
    simp only at h1 h2
    rw [evBytes_cons_data, List.nil_append] at h1 h2
    refine ⟨[], by simp, by simp [Ev.bytes], ⟨h1, ?_⟩, by simp, ?_⟩
    · intro j hj
      apply h2
      rw [endsFrom, if_pos rfl]
      exact List.mem_cons_of_mem _ hj
    · rintro k' hk'
      cases hk'
      refine ⟨by simp, by simp, ?_⟩
      intro _
      apply h2
      rw [endsFrom, if_pos rfl]
      exact List.mem_cons_self
  | case7 c rest n acc hc hle ih =>
    obtain ⟨got, a1, a2, a3, a4⟩ := ih (by
      obtain ⟨h1, h2⟩ := hE
      simp only at h1 h2
      rw [evBytes_cons_data, List.length_append] at h1 h2
      refine ⟨by simp only; omega, ?_⟩
      intro j hj
      apply h2
      rw [endsFrom, if_neg hc, show N - (c.length + (evBytes rest).length) + c.length = N - (evBytes rest).length from by omega]
      exact hj)
    refine ⟨c ++ got, by rw [a1]; simp, by rw [evBytes_cons_data, a2, List.append_assoc], a3, ?_, ?_⟩
    · intro h
      have := a4.1 h
      simp only [List.length_append]; omega
    · intro k h
      obtain ⟨h1, h2⟩ := a4.2 k h
      refine ⟨?_, h2⟩
      simp only [List.length_append]; omega
  | case8 c rest n acc hc hle =>
    have hlt : n + 1 < c.length := by omega
    refine ⟨c.take (n + 1), rfl, by rw [evBytes_cons_data, evBytes_cons_data, ← List.append_assoc, List.take_append_drop], ?_, by simp; omega, by simp⟩
    obtain ⟨h1, h2⟩ := hE
    simp only at h1 h2
    rw [evBytes_cons_data, List.length_append] at h1 h2
    refine ⟨by simp [Ev.bytes]; omega, ?_⟩
    intro j hj
    apply h2
    simp only [evBytes_cons_data, List.length_append] at hj
    rw [endsFrom, if_neg (by intro e; simp at e; omega)] at hj
    rw [endsFrom, if_neg hc]
    have e : N - ((c.drop (n + 1)).length + (evBytes rest).length) + (c.drop (n + 1)).length = N - (c.length + (evBytes rest).length) + c.length := by
      rw [List.length_drop]; omega
    rw [← e]
    exact hj

theorem greadExact {E : List Nat} {N : Nat} {r r' : Reader} {n : Nat} {o : Option IoKind} {got : List U8} (hE : EndsIn E N r)
    (h : r.readExact n = (o, got, r')) :
    evBytes r.script = got ++ evBytes r'.script ∧ EndsIn E N r' ∧ (o = none → got.length = n) ∧
      ∀ k, o = some k → got.length < n ∧ k ≠ .interrupted ∧ (k = .unexpectedEof → N - (evBytes r'.script).length ∈ E) := by
  obtain ⟨g, a1, a2, a3, a4, a5⟩ := greadExactGo (E := E) (N := N) r.tail r.script n [] hE
  unfold Reader.readExact at h
  simp only [Prod.mk.injEq] at h
  obtain ⟨h1, h2, h3⟩ := h
  rw [List.nil_append, h2] at a1
  subst a1 h3
  rw [← h1]
  exact ⟨a2, a3, a4, a5⟩

/-- Synchronizer state `s` is about to examine bit `p` of the bytes `x ++ S.drop pos`; `x` is empty or one left-over byte. -/
structure GAt (E : List Nat) (asm : List U8) (len : Nat) (S : List U8) (s : State) (pos p : Nat) (x : List U8) : Prop where
  ends : EndsIn E S.length s.bytes.reader
  rep : restOf s.bytes = x ++ S.drop pos
  stale : x = [] ∨ (x.length = 1 ∧ p ≠ 0)
  held : x.length ≤ s.bytes.cache.length
  pats : s.patterns = patterns asm
  msks : s.masks = masks asm
  idx : s.patternIdx = p
  lt : p < 8
  size : s.blockSize = len
  cache : s.bytes.cache.length ≤ asm.length + (if p = 0 then 0 else 1)
  pos_le : pos ≤ S.length

theorem gscan_unfold (asm : List U8) (s : State) (p : Nat) (e1 : s.patterns = patterns asm) (e2 : s.masks = masks asm) (e3 : s.patternIdx = p) (hp : p < 8) :
    scan s = match attempt (pmOf asm p) [] s.bytes with
      | .io k bytes =>
        if k = .unexpectedEof then .ret (.ok none, { s with bytes := bytes }) else .ret (.error (.io k), { s with bytes := bytes })
      | .mismatch working bytes =>
        if p + 1 = 8 then
          scan { s with patternIdx := 0, bytes := bytes.push (working.reverse.take (working.length - 1)) }
        else
          scan { s with patternIdx := p + 1, bytes := bytes.push working.reverse }
      | .found working bytes =>
        if bytes.numRead < bytes.cache.length then .panic else
        .ret (.ok (some ⟨if BitVec.ofNat 8 ((8 - p) % 8) = 0#8 then bytes.offset + 1 else bytes.offset, BitVec.ofNat 8 ((8 - p) % 8)⟩),
          { s with bytes := if p > 0 then bytes.push [working.getLast?.getD 0#8] else bytes }) := by
  have h8 : ¬ 8 ≤ s.patternIdx := by omega
  conv => lhs; rw [scan]
  rw [dif_neg h8]
  obtain ⟨sb, sz, sp, sm, si⟩ := s
  simp only at e1 e2 e3
  subst e1 e2 e3
  simp only [patterns_get asm si hp, masks_get asm si hp]
  split <;> rename_i heq <;> rw [zip_get] at heq <;> simp only [heq]
  split <;> rfl

/-- Where the search stands. -/
def standing (pos p : Nat) (x : List U8) : Nat := if x = [] then 8 * pos + p else 8 * pos

theorem restOf_push (b : Bytes) (w : List U8) : restOf (b.push w.reverse) = w ++ restOf b := by simp [restOf, Bytes.push]

/-- Scanning, on every reader. -/
theorem gscan_spec (E : List Nat) (asm : List U8) (hasm : asm ≠ []) (len : Nat) (S : List U8) (n : Nat) : ∀ (s s' : State) (pos p : Nat) (x : List U8)
    (res : Except Error (Option Loc)), n = 9 * (restOf s.bytes).length + (8 - p) → GAt E asm len S s pos p x → scan s = .ret (res, s') →
    (res = .ok none) ∨
    (∃ k pos' p', res = .error (.io k) ∧ GAt E asm len S s' pos' p' [] ∧ standing pos p x ≤ 8 * pos' + p') ∨
    (∃ loc pos' q, res = .ok (some loc) ∧ GAt E asm len S s' pos' q [] ∧ s'.bytes.cache.length = (if q = 0 then 0 else 1) ∧
      standing pos p x ≤ 8 * pos' + q ∧
      (x = [] → ∃ i, FirstAt (bits asm) (bits S) (8 * pos + p) i ∧ i + 8 * asm.length = 8 * pos' + q)) := by
  induction n using Nat.strongRecOn with
  | ind n ih =>
  intro s s' pos p x res hn h hs
  have hl : 0 < asm.length := List.length_pos_iff.2 hasm
  rw [gscan_unfold asm s p h.pats h.msks h.idx h.lt] at hs
  have hpl := pmOf_length asm p
  have hpos := h.pos_le
  have hcache := h.cache
  have hplt := h.lt
  have hat := gattempt (E := E) (N := S.length) (pmOf asm p) [] s.bytes h.ends
  have hleft := h.rep
  have hllen : (restOf s.bytes).length = x.length + (S.length - pos) := by rw [hleft]; simp
  generalize hL : restOf s.bytes = L at *
  split at hs
  · -- read error or end
    rename_i k b' heq
    rw [heq] at hat
    obtain ⟨g, j, a1, a2, a3, a4, a5⟩ := hat
    split at hs
    · left; simp only [Outcome.ret.injEq, Prod.mk.injEq] at hs; exact hs.1.symm
    · right; left
      simp only [Outcome.ret.injEq, Prod.mk.injEq] at hs
      obtain ⟨rfl, rfl⟩ := hs
      have hxj : x.length ≤ j := by have := h.held; omega
      refine ⟨k, pos + (j - x.length), p, rfl, ?_, ?_⟩
      · refine { ends := g, rep := ?_, stale := .inl rfl, held := by simp, pats := h.pats, msks := h.msks, idx := h.idx, lt := h.lt, size := h.size, cache := by simp [a4], pos_le := by omega }
        simp only
        rw [a3, hleft, List.drop_append, List.drop_of_length_le hxj, List.drop_drop, List.nil_append]
      · unfold standing; split <;> omega
  · -- mismatch
    rename_i w b' heq
    rw [heq] at hat
    obtain ⟨g, j, a1, a2, a3, a4, a5, a6, a7⟩ := hat
    rw [List.nil_append] at a4
    subst a4
    rw [matchTake_iff asm _ p h.lt j a2 a3] at a7
    have hno : x = [] → ¬ Occurs (bits asm) (bits S) (8 * pos + p) := by
      rintro rfl ho
      rw [List.nil_append] at hleft
      subst hleft
      rw [bits_drop, agrees_drop] at a7
      exact a7 (agrees_of_occurs ho)
    by_cases h7 : p + 1 = 8
    · rw [if_pos h7] at hs
      obtain ⟨y, ys, hy⟩ : ∃ y ys, L = y :: ys := by
        cases L with
        | nil => simp at a3; omega
        | cons y ys => exact ⟨y, ys, rfl⟩
      rw [hy] at hs a3 a5
      obtain ⟨j, rfl⟩ : ∃ i, j = i + 1 := ⟨j - 1, by omega⟩
      simp only [List.length_cons] at a3
      have e : ((List.take (j + 1) (y :: ys)).reverse.take ((List.take (j + 1) (y :: ys)).length - 1)) = (ys.take j).reverse := by
        simp only [List.take_succ_cons, List.reverse_cons, List.length_cons, Nat.add_sub_cancel]
        rw [List.take_append_of_le_length (by simp), List.take_of_length_le (by simp)]
      rw [e] at hs
      have hlt : (ys.take j).length = j := by simp; omega
      have hleft' : restOf (b'.push (ys.take j).reverse) = ys := by
        rw [restOf_push, a5, List.drop_succ_cons, List.take_append_drop]
      have hyp : ∃ pos1, ys = S.drop pos1 ∧ pos1 ≤ S.length ∧ standing pos p x ≤ 8 * pos1 ∧ (x = [] → 8 * pos1 = 8 * pos + p + 1) := by
        rcases h.stale with rfl | ⟨hx, _⟩
        · refine ⟨pos + 1, ?_, ?_, ?_, by omega⟩
          · rw [← List.drop_drop, ← List.nil_append (S.drop pos), ← hleft, hy]; rfl
          · rw [hy] at hllen; simp at hllen; omega
          · simp [standing]; omega
        · obtain ⟨z, rfl⟩ := List.length_eq_one_iff.1 hx
          rw [hy] at hleft
          simp only [List.singleton_append, List.cons.injEq] at hleft
          exact ⟨pos, hleft.2, hpos, by simp [standing], by simp⟩
      obtain ⟨pos1, y1, y2, y3, y4⟩ := hyp
      have hat1 : GAt E asm len S { s with patternIdx := 0, bytes := b'.push (ys.take j).reverse } pos1 0 [] :=
        { ends := g, rep := by rw [List.nil_append, ← y1]; exact hleft', stale := .inl rfl, held := by simp, pats := h.pats, msks := h.msks, idx := rfl,
          lt := by omega, size := h.size, pos_le := y2,
          cache := by
            simp only [push_cache, List.length_reverse, hlt, a6]
            rw [if_neg (by omega)] at hcache hpl
            simp only [if_true]
            omega }
      rcases ih _ (by
          simp only
          rw [hleft', hn, hy]; simp only [List.length_cons]; omega) _ s' pos1 0 [] res rfl hat1 hs with r | ⟨k, pos', p', r1, r2, r3⟩ | ⟨loc, pos', q, r1, r2, r3, r4, r5⟩
      · exact .inl r
      · exact .inr (.inl ⟨k, pos', p', r1, r2, by simp [standing] at r3; omega⟩)
      · refine .inr (.inr ⟨loc, pos', q, r1, r2, r3, by simp [standing] at r4; omega, ?_⟩)
        intro hx
        obtain ⟨i, i1, i2⟩ := r5 rfl
        refine ⟨i, firstAt_skip (b := 8 * pos1) (by have := y4 hx; omega) ?_ (by simpa using i1), i2⟩
        intro j' h1 h2
        have : j' = 8 * pos + p := by have := y4 hx; omega
        subst this; exact hno hx
    · rw [if_neg h7] at hs
      have hlt : (L.take j).length = j := by simp; omega
      have hleft' : restOf (b'.push (L.take j).reverse) = L := by
        rw [restOf_push, a5, List.take_append_drop]
      have hat1 : GAt E asm len S { s with patternIdx := p + 1, bytes := b'.push (L.take j).reverse } pos (p + 1) x :=
        { ends := g, rep := by rw [← hleft]; exact hleft',
          stale := by rcases h.stale with h | h; exact .inl h; exact .inr ⟨h.1, by omega⟩,
          held := by
            have := h.held
            simp only [push_cache, List.length_reverse, hlt, a6]; omega
          pats := h.pats, msks := h.msks, idx := rfl, lt := by omega, size := h.size, pos_le := hpos,
          cache := by
            simp only [push_cache, List.length_reverse, hlt, a6]
            rw [if_neg (by omega)]
            split at hcache <;> split at hpl <;> omega }
      rcases ih _ (by
          simp only
          rw [hleft', hn]; omega) _ s' pos (p + 1) x res rfl hat1 hs with r | ⟨k, pos', p', r1, r2, r3⟩ | ⟨loc, pos', q, r1, r2, r3, r4, r5⟩
      · exact .inl r
      · exact .inr (.inl ⟨k, pos', p', r1, r2, by unfold standing at *; split at r3 <;> rename_i hx <;> simp only [hx, if_true, if_false] <;> omega⟩)
      · refine .inr (.inr ⟨loc, pos', q, r1, r2, r3, by unfold standing at *; split at r4 <;> rename_i hx <;> simp only [hx, if_true, if_false] <;> omega, ?_⟩)
        intro hx
        obtain ⟨i, i1, i2⟩ := r5 hx
        refine ⟨i, firstAt_skip (b := 8 * pos + (p + 1)) (by omega) ?_ i1, i2⟩
        intro j' h1 h2
        have : j' = 8 * pos + p := by omega
        subst this; exact hno hx
  · -- found
    rename_i w b' heq
    rw [heq] at hat
    obtain ⟨g, a1, a2, a3, a4, a5⟩ := hat
    rw [List.nil_append] at a2
    subst a2
    have hc0 : b'.cache = [] := by
      apply List.length_eq_zero_iff.1
      split at hcache <;> split at hpl <;> omega
    split at hs
    · cases hs
    rename_i hnp
    simp only [Outcome.ret.injEq, Prod.mk.injEq] at hs
    obtain ⟨rfl, rfl⟩ := hs
    rw [match_iff asm _ hasm p h.lt] at a5
    have hpl1 : x.length ≤ 1 := by rcases h.stale with rfl | ⟨hx, _⟩ <;> simp_all
    have hfirst : x = [] → FirstAt (bits asm) (bits S) (8 * pos + p) (8 * pos + p) := by
      rintro rfl
      rw [hleft, List.nil_append, occurs_drop] at a5
      exact ⟨by omega, a5, by omega⟩
    right; right
    by_cases h0 : p = 0
    · subst h0
      have hx : x = [] := by rcases h.stale with hx | ⟨_, hx⟩; exact hx; exact absurd rfl hx
      subst hx
      simp only [if_true, Nat.add_zero] at hpl
      refine ⟨_, pos + asm.length, 0, rfl, ?_, by simp [hc0], by simp [standing]; omega, ?_⟩
      · refine { ends := g, rep := ?_, stale := .inl rfl, held := by simp, pats := h.pats, msks := h.msks, idx := h.idx, lt := h.lt, size := h.size, cache := by simp [hc0], pos_le := ?_ }
        · simp only [gt_iff_lt, Nat.lt_irrefl, if_false]
          rw [a3, hpl, hleft, List.nil_append, List.drop_drop, List.nil_append]
        · simp at hllen; omega
      · intro _
        exact ⟨8 * pos, by simpa using hfirst rfl, by omega⟩
    · rw [if_neg h0] at hpl
      rw [hpl] at a1 a3
      have hlast : (L.take (asm.length + 1)).getLast?.getD 0#8 = L[asm.length] := getLast_take (by omega)
      have hdl : L.drop asm.length = S.drop (pos + asm.length - x.length) := by
        rw [hleft, List.drop_append, List.drop_of_length_le (by omega), List.nil_append, List.drop_drop]
        congr 1; omega
      refine ⟨_, pos + asm.length - x.length, p, rfl, ?_, by simp [Bytes.push, hc0, h0, Nat.pos_of_ne_zero h0], ?_, ?_⟩
      · refine { ends := ?_, rep := ?_, stale := .inl rfl, held := by simp, pats := h.pats, msks := h.msks, idx := h.idx, lt := h.lt, size := h.size, cache := ?_, pos_le := by omega }
        · simp only [gt_iff_lt, Nat.pos_of_ne_zero h0, if_true]; exact g
        · simp only [gt_iff_lt, Nat.pos_of_ne_zero h0, if_true]
          rw [hpl, hlast, ← List.reverse_singleton, restOf_push, a3, List.nil_append, ← hdl, List.singleton_append]
          exact (List.drop_eq_getElem_cons (by omega)).symm
        · simp only [gt_iff_lt, Nat.pos_of_ne_zero h0, if_true, push_cache, hc0, if_neg h0]
          simp
      · unfold standing
        split
        · omega
        · omega
      · rintro rfl
        exact ⟨8 * pos + p, hfirst rfl, by simp; omega⟩

theorem fill_empty_err {b : Bytes} {n : Nat} {got : List U8} {k : IoKind} {r' : Reader} (hc : b.cache = []) (hk : k ≠ .unexpectedEof)
    (h : b.reader.readExact n = (some k, got, r')) : ∃ buf, b.fill n = (.error k, buf, ⟨r', b.numRead, []⟩) := by
  unfold Bytes.fill; rw [h, hc]; simp [hk]

theorem block_aligned_err {s : State} {k : IoKind} {buf : List U8} {b' : Bytes} (hi : s.patternIdx = 0) (h : s.bytes.fill s.blockSize = (.error k, buf, b')) :
    block s = (.error (.io k), { s with bytes := b' }) := by
  simp [block, hi, h]

theorem bits_zeros (n : Nat) : bits (List.replicate n 0#8) = List.replicate (8 * n) false := by
  induction n with
  | zero => rfl
  | succ n ih =>
    rw [List.replicate_succ, bits_cons, ih, bits_zero, List.replicate_append_replicate]
    congr 1; omega

theorem gblock (E : List Nat) (asm : List U8) (len : Nat) (S : List U8) (s : State) (pos q : Nat) (h : GAt E asm len S s pos q [])
    (hc : s.bytes.cache.length = if q = 0 then 0 else 1) :
    (∃ data s', block s = (.ok data, s') ∧ bits data = ((bits S).drop (8 * pos + q)).take (8 * len) ∧ 8 * pos + q + 8 * len ≤ 8 * S.length ∧
      GAt E asm len S s' (pos + len) q []) ∨
    (∃ data s' n, q = 0 ∧ n ∈ E ∧ pos ≤ n ∧ n < pos + len ∧ block s = (.ok data, s') ∧
      bits data = ((bits S).drop (8 * pos)).take (8 * (n - pos)) ++ List.replicate (8 * (pos + len - n)) false ∧ GAt E asm len S s' n 0 []) ∨
    (∃ k s' pos' x, k ≠ .interrupted ∧ block s = (.error (.io k), s') ∧ GAt E asm len S s' pos' q x ∧ 8 * pos + q ≤ standing pos' q x) := by
  have hrep := h.rep
  rw [List.nil_append] at hrep
  have hlt := h.lt
  have hpos := h.pos_le
  by_cases h0 : q = 0
  · subst h0
    simp only [if_true] at hc
    have hc' := List.length_eq_zero_iff.1 hc
    simp only [restOf, hc', List.reverse_nil, List.nil_append] at hrep
    cases hr : s.bytes.reader.readExact len with
    | mk o gr =>
    obtain ⟨got, r'⟩ := gr
    obtain ⟨a1, a2, a3, a4⟩ := greadExact h.ends hr
    rw [hrep] at a1
    have hl := congrArg List.length a1
    simp only [List.length_drop, List.length_append] at hl
    have hr' : evBytes r'.script = S.drop (pos + got.length) := by
      rw [← List.drop_drop, a1, List.drop_left']; rfl
    have hgot : got = (S.drop pos).take got.length := by rw [a1, List.take_left']; rfl
    have hat : ∀ nr : Nat, GAt E asm len S { s with blockSize := len, bytes := ⟨r', nr, []⟩ } (pos + got.length) 0 [] := fun nr =>
      { ends := a2, rep := by simp [restOf, hr'], stale := .inl rfl, held := by simp, pats := h.pats, msks := h.msks, idx := h.idx, lt := h.lt, size := rfl,
        cache := by simp, pos_le := by omega }
    cases o with
    | none =>
      have hg := a3 rfl
      left
      have hf := fill_empty_ok hc' hr
      rw [← h.size] at hf
      have hbl := block_aligned h.idx hf
      rw [h.size, List.take_of_length_le (by omega)] at hbl
      refine ⟨_, _, hbl, ?_, by omega, by have := hat (s.bytes.numRead + len); rw [hg] at this; exact this⟩
      rw [hgot, hg]
      simp [bits_take, bits_drop]
    | some k =>
      obtain ⟨g1, g2, g3⟩ := a4 k rfl
      by_cases hk : k = .unexpectedEof
      · subst hk
        right; left
        have hE := g3 rfl
        rw [hr', List.length_drop, show S.length - (S.length - (pos + got.length)) = pos + got.length from by omega] at hE
        have hf := fill_empty_eof hc' hr
        rw [← h.size] at hf
        have hbl := block_aligned h.idx hf
        rw [h.size, List.take_of_length_le (by simp; omega)] at hbl
        refine ⟨_, _, pos + got.length, rfl, hE, by omega, by omega, hbl, ?_, hat _⟩
        rw [bits_append, bits_zeros]
        congr 1
        · rw [show pos + got.length - pos = got.length from by omega]
          conv => lhs; rw [hgot]
          simp [bits_take, bits_drop]
        · congr 1; omega
      · right; right
        obtain ⟨buf, hf⟩ := fill_empty_err hc' hk hr
        rw [← h.size] at hf
        have hbl := block_aligned_err h.idx hf
        rw [h.size] at hbl
        exact ⟨k, _, pos + got.length, [], g2, hbl, hat _, by simp [standing]; omega⟩
  · rw [if_neg h0] at hc
    obtain ⟨b, hb⟩ := List.length_eq_one_iff.1 hc
    simp only [restOf, hb, List.reverse_singleton, List.singleton_append] at hrep
    have hd := congrArg List.length hrep
    simp only [List.length_cons, List.length_drop] at hd
    have hdrop : evBytes s.bytes.reader.script = S.drop (pos + 1) := by rw [← List.drop_drop, ← hrep]; rfl
    have hne : s.patternIdx ≠ 0 := by rw [h.idx]; exact h0
    cases hr : s.bytes.reader.readExact len with
    | mk o gr =>
    obtain ⟨got, r'⟩ := gr
    obtain ⟨a1, a2, a3, a4⟩ := greadExact h.ends hr
    have hl := congrArg List.length a1
    simp only [List.length_append] at hl
    have hr' : evBytes r'.script = S.drop (pos + 1 + got.length) := by
      rw [← List.drop_drop, ← hdrop, a1, List.drop_left']; rfl
    cases o with
    | none =>
      have hg := a3 rfl
      left
      have hbg : b :: got = (S.drop pos).take (len + 1) := by
        rw [← hrep, a1, List.take_succ_cons, List.take_left' hg]
      have hf := fill_one_ok hb hr
      rw [← h.size] at hf
      have hbl := block_shifted hne hf
      rw [h.size, h.idx] at hbl
      have hlast : (b :: got).getLast?.getD 0#8 = (S.drop pos)[len]'(by simp; omega) := by rw [hbg]; exact getLast_take (by simp; omega)
      refine ⟨_, _, hbl, ?_, by omega, ?_⟩
      · rw [bits_take, bits_leftShift q hlt _ (by simp), List.take_append_of_le_length (by simp; omega), hbg, bits_take, List.drop_take, List.take_take,
          Nat.min_eq_left (by omega), bits_drop, List.drop_drop]
      · refine { ends := a2, rep := ?_, stale := .inl rfl, held := by simp, pats := h.pats, msks := h.msks, idx := by simp, lt := h.lt, size := by simp,
                 cache := by simp [Bytes.push, h0], pos_le := by omega }
        simp only
        rw [hlast, ← List.reverse_singleton, restOf_push, List.nil_append, List.singleton_append]
        simp only [restOf, List.reverse_nil, List.nil_append]
        rw [hr', ← List.drop_drop (i := len), List.drop_eq_getElem_cons (l := S.drop pos) (i := len) (by simp; omega), List.drop_drop, hg]
        congr 2; omega
    | some k =>
      obtain ⟨g1, g2, g3⟩ := a4 k rfl
      right; right
      obtain ⟨buf, hf⟩ := fill_one_err (by omega) hb hr
      rw [← h.size] at hf
      refine ⟨k, _, pos + 1 + got.length, [b], g2, block_shifted_err hne hf, ?_, by simp [standing]; omega⟩
      exact { ends := a2, rep := by simp [restOf, hr'], stale := .inr ⟨rfl, h0⟩, held := by simp, pats := h.pats, msks := h.msks, idx := h.idx, lt := h.lt, size := h.size,
              cache := by simp [h0], pos_le := by rw [hdrop, List.length_drop] at hl; omega }

/-- One item, on every reader. -/
theorem gitem (E : List Nat) (asm : List U8) (hasm : asm ≠ []) (len : Nat) (S : List U8) (s t : Iter) (pos p : Nat) (x : List U8) (fresh : Bool)
    (it : Except Error Block) (h : GAt E asm len S s.scanner pos p x) (hf : fresh = true → x = []) (hn : next s = .ret (some it, t)) :
    ∃ pos' p' x' fresh', GAt E asm len S t.scanner pos' p' x' ∧ (fresh' = true → x' = []) ∧
      ∀ its, Sound (bits asm) (bits S) E (8 * len) (standing pos' p' x') fresh' its → Sound (bits asm) (bits S) E (8 * len) (standing pos p x) fresh (it :: its) := by
  unfold next at hn
  cases hs : scan s.scanner with
  | panic => rw [hs] at hn; cases hn
  | ret v =>
  obtain ⟨res, sc⟩ := v
  rw [hs] at hn
  rcases gscan_spec E asm hasm len S _ s.scanner sc pos p x res rfl h hs with rfl | ⟨k, pos', p', rfl, r2, r3⟩ | ⟨loc, pos', q, rfl, r2, r3, r4, r5⟩
  · simp at hn
  · simp only [Outcome.ret.injEq, Prod.mk.injEq, Option.some.injEq] at hn
    obtain ⟨rfl, rfl⟩ := hn
    exact ⟨pos', p', [], fresh, r2, by simp, fun its hi => .err (by simpa [standing] using r3) (fun _ => rfl) hi⟩
  · simp only at hn
    split at hn
    · cases hn
    rcases gblock E asm len S sc pos' q r2 r3 with ⟨data, s', b1, b2, b3, b4⟩ | ⟨data, s', n, rfl, b1, b2, b3, b4, b5, b6⟩ | ⟨k, s', pos'', x', b1, b2, b3, b4⟩
    · rw [b1] at hn
      simp only [Outcome.ret.injEq, Prod.mk.injEq, Option.some.injEq] at hn
      obtain ⟨rfl, rfl⟩ := hn
      refine ⟨pos' + len, q, [], true, b4, by simp, ?_⟩
      intro its hi
      simp only [standing, if_true] at hi
      cases fresh with
      | true =>
        have hx := hf rfl
        obtain ⟨i, i1, i2⟩ := r5 hx
        have e : i + (bits asm).length = 8 * pos' + q := by rw [bits_length]; exact i2
        simp only [standing, hx, if_true]
        refine .ok i1 (by rw [e, bits_length]; exact b3) (by rw [e]; exact b2) ?_
        rw [e, show 8 * pos' + q + 8 * len = 8 * (pos' + len) + q from by omega]
        exact hi
      | false =>
        refine .later r4 (by rw [bits_length]; exact b3) b2 ?_
        rw [show 8 * pos' + q + 8 * len = 8 * (pos' + len) + q from by omega]
        exact hi
    · rw [b4] at hn
      simp only [Outcome.ret.injEq, Prod.mk.injEq, Option.some.injEq] at hn
      obtain ⟨rfl, rfl⟩ := hn
      refine ⟨n, 0, [], true, b6, by simp, ?_⟩
      intro its hi
      simp only [standing, if_true, Nat.add_zero] at hi
      cases fresh with
      | true =>
        have hx := hf rfl
        obtain ⟨i, i1, i2⟩ := r5 hx
        have e : i + (bits asm).length = 8 * pos' := by rw [bits_length]; omega
        simp only [standing, hx, if_true]
        refine .cut i1 (by omega) b1 (by omega) (by omega) ?_ hi
        simp only
        rw [e, b5, Nat.mul_sub, show 8 * (pos' + len - n) = 8 * pos' + 8 * len - 8 * n from by omega]
      | false =>
        refine .laterCut (i := 8 * pos') r4 (by omega) b1 (by omega) (by omega) ?_ hi
        simp only
        rw [b5, Nat.mul_sub, show 8 * (pos' + len - n) = 8 * pos' + 8 * len - 8 * n from by omega]
    · rw [b2] at hn
      simp only [Outcome.ret.injEq, Prod.mk.injEq, Option.some.injEq] at hn
      obtain ⟨rfl, rfl⟩ := hn
      refine ⟨pos'', q, x', false, b3, by simp, ?_⟩
      intro its hi
      exact .err (by omega) (by intro he; simp only [Error.io.injEq] at he; exact absurd he b1) hi

theorem giter (r : Reader) (asm : List U8) (len : Nat) :
    GAt (endsFrom r.tail 0 r.script) asm len (evBytes r.script) (iter r asm len).scanner 0 0 [] :=
  { ends := ⟨by simp [iter, new, State.withAsm, Bytes.new], by simp [iter, new, State.withAsm, Bytes.new]⟩,
    rep := by simp [restOf, iter, new, State.withAsm, Bytes.new], stale := .inl rfl, held := by simp, pats := rfl, msks := rfl, idx := rfl, lt := by omega, size := rfl,
    cache := by simp [iter, new, State.withAsm, Bytes.new], pos_le := by omega }

end Sync
end Ccsds
