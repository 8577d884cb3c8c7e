import Verif.Spec.Merge
import Verif.Props.PacketDecoder
import Verif.Props.Groups
/-!
# Lemmas about `Merger`
-/
namespace Ccsds
open Spec
namespace Merger
variable {Path : Type} [DecidableEq Path]

theorem flag_iff (p : Packet) : (!(p.isFirst || p.isStandalone)) = false ↔
    (p.header.sequenceFlags.toNat = 1 ∨ p.header.sequenceFlags.toNat = 3) := by
  have e1 : p.isFirst = true ↔ p.header.sequenceFlags.toNat = 1 := by
    simp only [Packet.isFirst, beq_iff_eq, PrimaryHeader.SEQ_FIRST]
    constructor
    · intro h; rw [h]; rfl
    · intro h; apply BitVec.eq_of_toNat_eq; rw [h]; rfl
  have e2 : p.isStandalone = true ↔ p.header.sequenceFlags.toNat = 3 := by
    simp only [Packet.isStandalone, beq_iff_eq, PrimaryHeader.SEQ_UNSEGMENTED]
    constructor
    · intro h; rw [h]; rfl
    · intro h; apply BitVec.eq_of_toNat_eq; rw [h]; rfl
  rw [← e1, ← e2]
  cases p.isFirst <;> cases p.isStandalone <;> simp

/-- The pointer of an eligible group. -/
def ptrOf (m : Merger Path) (path : Path) (g : PacketGroup) (first : Packet) (t : Epoch) : Ptr Path :=
  ⟨path, first.offset, (g.packets.map fun p => PrimaryHeader.LEN + p.header.lenMinus1.toNat + 1).sum, t, first.header.apid,
    first.header.sequenceId, (m.order.get? first.header.apid).getD (first.header.apid.toNat : Int)⟩

theorem pointer_some {b : Build} {τ : Epoch → Int} {m : Merger Path} {path : Path} {g : PacketGroup} {q : Ptr Path}
    (h : m.pointer b τ path g = .ret (some q)) :
    ∃ first rest, g.packets = first :: rest ∧ Eligible b τ m.timeDecoder m.fromEpoch m.toEpoch m.apids g q.time ∧ q = ptrOf m path g first q.time := by
  unfold pointer at h
  split at h
  · cases h
  · rename_i first rest hg
    split at h
    · cases h
    · rename_i hfl
      cases hd : m.timeDecoder.decode b first with
      | panic => rw [hd] at h; cases h
      | ret r =>
        rw [hd] at h
        simp only [Outcome.ret_bind] at h
        cases r with
        | error e => cases h
        | ok epoch =>
          simp only at h
          split at h
          · cases h
          · rename_i h1
            split at h
            · cases h
            · rename_i h2
              split at h
              · cases h
              · rename_i h3
                cases h
                refine ⟨first, rest, hg, ⟨first, rest, hg, (flag_iff first).1 (by simpa using hfl), hd, Int.not_lt.1 h1, Int.not_le.1 h2, ?_⟩, rfl⟩
                cases ha : m.apids with
                | nil => exact .inl rfl
                | cons x xs =>
                  right
                  rw [ha] at h3
                  simp only [List.isEmpty_cons, Bool.not_false, Bool.true_and, Bool.not_eq_true', Bool.not_eq_false] at h3
                  exact List.contains_iff_mem.1 h3

theorem pointer_eligible {b : Build} {τ : Epoch → Int} {m : Merger Path} {path : Path} {g : PacketGroup} {t : Epoch}
    (h : Eligible b τ m.timeDecoder m.fromEpoch m.toEpoch m.apids g t) :
    ∃ first rest, g.packets = first :: rest ∧ m.pointer b τ path g = .ret (some (ptrOf m path g first t)) := by
  obtain ⟨first, rest, hg, hfl, hd, h1, h2, h3⟩ := h
  refine ⟨first, rest, hg, ?_⟩
  unfold pointer
  rw [hg]
  simp only
  rw [(flag_iff first).2 hfl]
  simp only [Bool.false_eq_true, if_false, hd, Outcome.ret_bind]
  rw [if_neg (by omega), if_neg (by omega)]
  have : (!m.apids.isEmpty && !m.apids.contains first.header.apid) = false := by
    rcases h3 with h3 | h3
    · simp [h3]
    · simp [h3]
  rw [this]
  simp [ptrOf, hg]

end Merger

namespace Ptr
variable {Path : Type}

theorem insert_keys (τ : Epoch → Int) (s : List (Ptr Path)) (p : Ptr Path) (k : U16 × Int × U16) :
    k ∈ (insert τ s p).map (key τ) ↔ k ∈ s.map (key τ) ∨ k = p.key τ := by
  unfold insert
  split
  · rename_i h
    constructor
    · exact .inl
    · rintro (h' | rfl)
      · exact h'
      · exact h
  · simp only [List.map_append, List.map_cons, List.map_nil, List.mem_append, List.mem_cons, List.not_mem_nil, or_false]

theorem insert_nodup (τ : Epoch → Int) (s : List (Ptr Path)) (p : Ptr Path) (h : (s.map (key τ)).Nodup) : ((insert τ s p).map (key τ)).Nodup := by
  unfold insert
  split
  · exact h
  · rename_i hn
    rw [List.map_append, List.nodup_append]
    refine ⟨h, by simp, ?_⟩
    intro a ha c hc
    simp only [List.map_cons, List.map_nil, List.mem_cons, List.not_mem_nil, or_false] at hc
    subst hc
    intro he
    subst he
    exact hn ha

theorem insert_mem (τ : Epoch → Int) (s : List (Ptr Path)) (p q : Ptr Path) (h : q ∈ insert τ s p) : q ∈ s ∨ q = p := by
  unfold insert at h
  split at h
  · exact .inl h
  · simpa using h

theorem diff_nodup (τ : Epoch → Int) (a b : List (Ptr Path)) (h : (a.map (key τ)).Nodup) : ((diff τ a b).map (key τ)).Nodup :=
  (List.filter_sublist.map _).nodup h

theorem append_diff (τ : Epoch → Int) (a b : List (Ptr Path)) (ha : (a.map (key τ)).Nodup) (hb : (b.map (key τ)).Nodup) :
    ((a ++ diff τ b a).map (key τ)).Nodup ∧ ∀ k, k ∈ (a ++ diff τ b a).map (key τ) ↔ k ∈ a.map (key τ) ∨ k ∈ b.map (key τ) := by
  constructor
  · rw [List.map_append, List.nodup_append]
    refine ⟨ha, diff_nodup τ b a hb, ?_⟩
    intro x hx y hy he
    subst he
    obtain ⟨p, hp, rfl⟩ := List.mem_map.1 hy
    have := (List.mem_filter.1 hp).2
    simp only [Bool.not_eq_true', decide_eq_false_iff_not] at this
    exact this hx
  · intro k
    rw [List.map_append, List.mem_append]
    constructor
    · rintro (h | h)
      · exact .inl h
      · obtain ⟨p, hp, rfl⟩ := List.mem_map.1 h
        exact .inr (List.mem_map.2 ⟨p, (List.mem_filter.1 hp).1, rfl⟩)
    · rintro (h | h)
      · exact .inl h
      · by_cases hk : k ∈ a.map (key τ)
        · exact .inl hk
        · right
          obtain ⟨p, hp, rfl⟩ := List.mem_map.1 h
          exact List.mem_map.2 ⟨p, List.mem_filter.2 ⟨hp, by simpa using hk⟩, rfl⟩

theorem union_spec (τ : Epoch → Int) (a b : List (Ptr Path)) (ha : (a.map (key τ)).Nodup) (hb : (b.map (key τ)).Nodup) :
    ((union τ a b).map (key τ)).Nodup ∧ (∀ k, k ∈ (union τ a b).map (key τ) ↔ k ∈ a.map (key τ) ∨ k ∈ b.map (key τ)) ∧
      ∀ q ∈ union τ a b, q ∈ a ∨ q ∈ b := by
  unfold union
  split
  · obtain ⟨h1, h2⟩ := append_diff τ a b ha hb
    refine ⟨h1, h2, ?_⟩
    intro q hq
    rcases List.mem_append.1 hq with h | h
    · exact .inl h
    · exact .inr (List.mem_filter.1 h).1
  · obtain ⟨h1, h2⟩ := append_diff τ b a hb ha
    refine ⟨h1, fun k => (h2 k).trans Or.comm, ?_⟩
    intro q hq
    rcases List.mem_append.1 hq with h | h
    · exact .inr h
    · exact .inl (List.mem_filter.1 h).1

theorem le_trans (τ : Epoch → Int) (a b c : Ptr Path) (h : le τ a b = true) (k : le τ b c = true) : le τ a c = true := by
  simp only [le, Bool.or_eq_true, decide_eq_true_eq, Bool.and_eq_true, beq_iff_eq] at *
  omega

theorem le_total (τ : Epoch → Int) (a b : Ptr Path) : (le τ a b || le τ b a) = true := by
  simp only [le, Bool.or_eq_true, decide_eq_true_eq, Bool.and_eq_true, beq_iff_eq]
  omega

end Ptr

namespace Merger
variable {Path : Type} [DecidableEq Path]

/-- `q` is the pointer of an eligible group of a file. -/
def PtrGood (b : Build) (τ : Epoch → Int) (m : Merger Path) (files : Path → Option MFile) (q : Ptr Path) : Prop :=
  q.path ∈ m.paths ∧ ∃ f gs g first rest, files q.path = some f ∧ FileGroups f gs ∧ g ∈ gs ∧ g.packets = first :: rest ∧
    Eligible b τ m.timeDecoder m.fromEpoch m.toEpoch m.apids g q.time ∧ q = ptrOf m q.path g first q.time

theorem pointersLoop_spec (b : Build) (τ : Epoch → Int) (m : Merger Path) (path : Path) (gs : List PacketGroup) :
    ∀ (acc r : List (Ptr Path)), m.pointersLoop b τ path gs acc = .ret r → (acc.map (Ptr.key τ)).Nodup →
      (r.map (Ptr.key τ)).Nodup ∧
      (∀ q ∈ r, q ∈ acc ∨ ∃ g ∈ gs, m.pointer b τ path g = .ret (some q)) ∧
      (∀ q ∈ acc, q.key τ ∈ r.map (Ptr.key τ)) ∧
      (∀ g ∈ gs, ∀ q, m.pointer b τ path g = .ret (some q) → q.key τ ∈ r.map (Ptr.key τ)) := by
  induction gs with
  | nil =>
    intro acc r h hn
    cases h
    exact ⟨hn, fun q hq => .inl hq, fun q hq => List.mem_map.2 ⟨q, hq, rfl⟩, by simp⟩
  | cons g gs ih =>
    intro acc r h hn
    rw [pointersLoop] at h
    cases hp : m.pointer b τ path g with
    | panic => rw [hp] at h; cases h
    | ret o =>
      rw [hp] at h
      simp only [Outcome.ret_bind] at h
      cases o with
      | none =>
        obtain ⟨a1, a2, a3, a4⟩ := ih acc r h hn
        refine ⟨a1, ?_, a3, ?_⟩
        · intro q hq
          rcases a2 q hq with h | ⟨g', hg', h⟩
          · exact .inl h
          · exact .inr ⟨g', List.mem_cons_of_mem _ hg', h⟩
        · intro g' hg' q hq
          rcases List.mem_cons.1 hg' with rfl | hg'
          · rw [hp] at hq; cases hq
          · exact a4 g' hg' q hq
      | some p =>
        obtain ⟨a1, a2, a3, a4⟩ := ih _ r h (Ptr.insert_nodup τ acc p hn)
        have key : ∀ k, k ∈ (Ptr.insert τ acc p).map (Ptr.key τ) → k ∈ r.map (Ptr.key τ) := by
          intro k hk
          obtain ⟨q, hq, rfl⟩ := List.mem_map.1 hk
          exact a3 q hq
        refine ⟨a1, ?_, ?_, ?_⟩
        · intro q hq
          rcases a2 q hq with h | ⟨g', hg', h⟩
          · rcases Ptr.insert_mem τ acc p q h with h | rfl
            · exact .inl h
            · exact .inr ⟨g, List.mem_cons_self .., hp⟩
          · exact .inr ⟨g', List.mem_cons_of_mem _ hg', h⟩
        · intro q hq
          exact key _ ((Ptr.insert_keys τ acc p _).2 (.inl (List.mem_map.2 ⟨q, hq, rfl⟩)))
        · intro g' hg' q hq
          rcases List.mem_cons.1 hg' with rfl | hg'
          · rw [hp] at hq
            cases hq
            exact key _ ((Ptr.insert_keys τ acc p _).2 (.inr rfl))
          · exact a4 g' hg' q hq

/-- The collected items of `decode_packets` on a file that delivers its content are all packets. -/
theorem collects_items {f : MFile} (hd : f.reader.Delivers f.content) {items : List (Except Error Packet)} {e : Option PacketDecoder}
    (h : Collects PacketDecoder.next (PacketDecoder.new f.reader) items e) :
    ∃ ps rest, items = ps.map .ok ∧ f.content = wire ps ++ rest ∧ (∀ p ∈ ps, p.WellFormed) ∧ OffsetsOk ps := by
  obtain ⟨ps, rest, e', h1, h2, h3, h4, _⟩ := C04_cut f.content f.reader hd
  obtain ⟨rfl, rfl⟩ := h.unique h1
  exact ⟨ps, rest, rfl, h2, h3, h4⟩

theorem oks_map_ok {α ε : Type} (l : List α) : oks (l.map (Except.ok (ε := ε))) = l := by
  induction l with
  | nil => rfl
  | cons a l ih => show a :: oks (l.map Except.ok) = a :: l; rw [ih]

theorem collects_groups {ps : List Packet} {items : List (Except Error PacketGroup)} {e : Option PacketGroupIter}
    (h : Collects PacketGroupIter.next (PacketGroupIter.new ps) items e) :
    ∃ gs : List PacketGroup, items = gs.map .ok ∧ gs.flatMap PacketGroup.packets = ps ∧ (∀ g ∈ gs, g.packets ≠ []) ∧ e ≠ none := by
  obtain ⟨gs, s, h1, h2, h3⟩ := C11_partition ps
  obtain ⟨rfl, rfl⟩ := h.unique h1
  exact ⟨gs, rfl, h2, fun g hg => (h3 g hg).1, by simp⟩

theorem fileGroups_unique {f : MFile} {gs hs : List PacketGroup} (h : FileGroups f gs) (k : FileGroups f hs) : gs = hs := by
  obtain ⟨ps, s, s', a, b⟩ := h
  obtain ⟨qs, t, t', c, d⟩ := k
  have hinj : ∀ {α : Type} (x y : List α), x.map (Except.ok (ε := Error)) = y.map Except.ok → x = y := by
    intro α x y hxy
    exact (List.map_inj_right (fun x y h => by cases h; rfl)).1 hxy
  have e1 := hinj _ _ (a.unique c).1
  subst e1
  exact hinj _ _ (b.unique d).1

/-- The pointers of one file. -/
theorem pointers_spec {b : Build} {τ : Epoch → Int} {m : Merger Path} {path : Path} {f : MFile} {r : List (Ptr Path)}
    (hd : f.reader.Delivers f.content) (h : m.Pointers b τ path f (some r)) :
    ∃ gs, FileGroups f gs ∧ (r.map (Ptr.key τ)).Nodup ∧
      (∀ q ∈ r, ∃ g ∈ gs, m.pointer b τ path g = .ret (some q)) ∧
      (∀ g ∈ gs, ∀ q, m.pointer b τ path g = .ret (some q) → q.key τ ∈ r.map (Ptr.key τ)) := by
  obtain ⟨items, e, h1, gitems, s, h2, h3⟩ := h
  obtain ⟨ps, rest, rfl, _, _, _⟩ := collects_items hd h1
  rw [oks_map_ok] at h2
  obtain ⟨gs, rfl, _, _, _⟩ := collects_groups h2
  rw [oks_map_ok] at h3
  cases e with
  | none => simp at h3
  | some s1 =>
    cases hp : m.pointersLoop b τ path gs [] with
    | panic => rw [hp] at h3; simp at h3
    | ret ps' =>
      rw [hp] at h3
      simp only [Option.some.injEq] at h3
      subst h3
      obtain ⟨a1, a2, _, a4⟩ := pointersLoop_spec b τ m path gs [] _ hp (by simp)
      exact ⟨gs, ⟨ps, s1, s, h1, h2⟩, a1, fun q hq => (a2 q hq).elim (by simp) id, a4⟩

/-- The index over all visited files. -/
theorem index_spec {b : Build} {τ : Epoch → Int} {m : Merger Path} {files : Path → Option MFile}
    (hfiles : ∀ p f, files p = some f → f.reader.Delivers f.content) {visit : List Path} {idx r : List (Ptr Path)}
    (h : Index b τ m files visit idx (some r)) (hv : ∀ p ∈ visit, p ∈ m.paths) (hn : (idx.map (Ptr.key τ)).Nodup)
    (hg : ∀ q ∈ idx, PtrGood b τ m files q) :
    (r.map (Ptr.key τ)).Nodup ∧ (∀ q ∈ r, PtrGood b τ m files q) ∧
    (∀ q ∈ idx, q.key τ ∈ r.map (Ptr.key τ)) ∧
    (∀ p ∈ visit, ∀ f gs, files p = some f → FileGroups f gs → ∀ g ∈ gs, ∀ q, m.pointer b τ p g = .ret (some q) → q.key τ ∈ r.map (Ptr.key τ)) := by
  generalize hr : some r = res at h
  induction h with
  | done => cases hr; exact ⟨hn, hg, fun q hq => List.mem_map.2 ⟨q, hq, rfl⟩, by simp⟩
  | panicked => cases hr
  | @step p ps f idx idx' new new' res hf hp hperm hperm' _ ih =>
    obtain ⟨gs, b1, b2, b3, b4⟩ := pointers_spec (hfiles p f hf) hp
    have n1 : (idx'.map (Ptr.key τ)).Nodup := ((hperm'.map _).nodup_iff).2 hn
    have n2 : (new'.map (Ptr.key τ)).Nodup := ((hperm.map _).nodup_iff).2 b2
    obtain ⟨u1, u2, u3⟩ := Ptr.union_spec τ idx' new' n1 n2
    have hgood : ∀ q ∈ Ptr.union τ idx' new', PtrGood b τ m files q := by
      intro q hq
      rcases u3 q hq with h | h
      · exact hg q (hperm'.mem_iff.1 h)
      · obtain ⟨g, hgm, hpt⟩ := b3 q (hperm.mem_iff.1 h)
        obtain ⟨first, rest, e1, e2, e3⟩ := pointer_some hpt
        have hpath : q.path = p := by rw [e3]; rfl
        refine ⟨by rw [hpath]; exact hv p (by simp), f, gs, g, first, rest, by rw [hpath]; exact hf, b1, hgm, e1, e2, by rw [hpath]; exact e3⟩
    obtain ⟨c1, c2, c3, c4⟩ := ih (fun x hx => hv x (by simp [hx])) u1 hgood hr
    have hkey : ∀ k, k ∈ (Ptr.union τ idx' new').map (Ptr.key τ) → k ∈ r.map (Ptr.key τ) := by
      intro k hk
      obtain ⟨q, hq, rfl⟩ := List.mem_map.1 hk
      exact c3 q hq
    refine ⟨c1, c2, ?_, ?_⟩
    · intro q hq
      exact hkey _ ((u2 _).2 (.inl (List.mem_map.2 ⟨q, hperm'.mem_iff.2 hq, rfl⟩)))
    · intro p' hp' f' gs' hf' hgs' g hg q hq
      rcases List.mem_cons.1 hp' with rfl | hp'
      · rw [hf] at hf'
        cases hf'
        have := fileGroups_unique hgs' b1
        subst this
        exact hkey _ ((u2 _).2 (.inr ((hperm.map _).mem_iff.2 (b4 g hg q hq))))
      · exact c4 p' hp' f' gs' hf' hgs' g hg q hq

theorem mem_distinct (l : List Path) (p : Path) : p ∈ distinct l ↔ p ∈ l := by
  induction l with
  | nil => rfl
  | cons a l ih =>
    rw [distinct]
    split
    · rename_i h
      rw [ih, List.mem_cons]
      constructor
      · exact .inr
      · rintro (rfl | h')
        · exact h
        · exact h'
    · rw [List.mem_cons, List.mem_cons, ih]

theorem wire_append (a c : List Packet) : wire (a ++ c) = wire a ++ wire c := by simp [wire]

theorem sizes (ps : List Packet) (h : ∀ p ∈ ps, p.WellFormed) :
    (ps.map fun p => PrimaryHeader.LEN + p.header.lenMinus1.toNat + 1).sum = (wire ps).length := by
  induction ps with
  | nil => rfl
  | cons p ps ih =>
    rw [List.map_cons, List.sum_cons, ih (fun x hx => h x (by simp [hx]))]
    show _ = (p.data ++ wire ps).length
    rw [List.length_append]
    have hw := h p (by simp)
    have h7 := packetLen_ge p.data
    obtain ⟨h0, _, e0, e1⟩ := decode_take6 p.data (by rw [hw.1]; omega)
    rw [hw.2] at e0
    cases e0
    have := hw.1
    simp only [PrimaryHeader.LEN]
    omega

/-- What the pointer of an eligible group points to: the bytes of the group. -/
theorem pointed_bytes {f : MFile} (hd : f.reader.Delivers f.content) {gs : List PacketGroup} (hg : FileGroups f gs) {g : PacketGroup}
    (hm : g ∈ gs) {first : Packet} {rest : List Packet} (hp : g.packets = first :: rest) :
    (f.content.drop first.offset).take ((g.packets.map fun p => PrimaryHeader.LEN + p.header.lenMinus1.toNat + 1).sum) = wire g.packets ∧
    ((g.packets.map fun p => PrimaryHeader.LEN + p.header.lenMinus1.toNat + 1).sum) = (wire g.packets).length := by
  obtain ⟨ps, s, s', h1, h2⟩ := hg
  obtain ⟨ps', tail, e, hc, hw, ho⟩ := collects_items hd h1
  have hinj : ∀ {α : Type} (x y : List α), x.map (Except.ok (ε := Error)) = y.map Except.ok → x = y := by
    intro α x y hxy
    exact (List.map_inj_right (fun x y h => by cases h; rfl)).1 hxy
  have := hinj _ _ e
  subst this
  obtain ⟨gs', e', hflat, _, _⟩ := collects_groups h2
  have := hinj _ _ e'
  subst this
  obtain ⟨A, B, rfl⟩ := List.append_of_mem hm
  rw [List.flatMap_append, List.flatMap_cons] at hflat
  have hoff : first.offset = (wire (A.flatMap PacketGroup.packets)).length := by
    apply ho (A.flatMap PacketGroup.packets) first (rest ++ B.flatMap PacketGroup.packets)
    rw [← hflat, hp]; simp
  have hsz := sizes g.packets (by
    intro p hp'
    apply hw
    rw [← hflat]
    simp [hp'])
  refine ⟨?_, hsz⟩
  rw [hsz, hoff, hc, ← hflat, wire_append, wire_append, List.append_assoc, List.append_assoc, List.drop_left, List.take_left]

end Merger
end Ccsds
