import Verif.Spec.Pickling
import Verif.Lemmas.Py
import Mathlib.Data.List.Basic
/-! # Lemmas on sending expressions between processes -/
namespace Verif.Pickling
open Spec

variable {text : Part → String}

theorem packPart_prefix (written : List Part) (a : Part) : written <+: (packPart text written a).1 := by
  unfold packPart
  split
  · exact List.prefix_rfl
  · exact List.prefix_append _ _

theorem mem_packPart (written : List Part) (a : Part) : a ∈ (packPart text written a).1 := by
  unfold packPart
  split
  · assumption
  · simp

theorem pack_prefix (e written : List Part) : written <+: (pack text written e).1 := by
  induction e generalizing written with
  | nil => exact List.prefix_rfl
  | cons a l ih => exact (packPart_prefix written a).trans (ih _)

theorem mem_pack (e written : List Part) : ∀ a ∈ e, a ∈ (pack text written e).1 := by
  induction e generalizing written with
  | nil => simp
  | cons a l ih =>
    intro b hb
    rcases List.mem_cons.1 hb with rfl | hb
    · exact (pack_prefix l _).subset (mem_packPart written b)
    · exact ih _ b hb

theorem idxOf_prefix {l l' : List Part} (h : l <+: l') {a : Part} (ha : a ∈ l) : l'.idxOf a = l.idxOf a := by
  obtain ⟨t, rfl⟩ := h
  exact List.idxOf_append_of_mem ha

theorem unpackPart_packPart (written : List Part) (a : Part) :
    unpackPart (written.map text) (packPart text written a).2 =
      .ok ((packPart text written a).1.map text, ((packPart text written a).1.idxOf a, text a)) := by
  unfold packPart
  split
  · rename_i h
    have h' := List.idxOf_lt_length_iff.2 h
    simp [unpackPart, List.getElem?_eq_getElem h']
  · rename_i h
    simp [unpackPart, List.idxOf_append_of_notMem h]

theorem unpack_pack (e written : List Part) :
    unpack (written.map text) (pack text written e).2 =
      .ok ((pack text written e).1.map text,
        e.map fun a => ((pack text written e).1.idxOf a, text a)) := by
  induction e generalizing written with
  | nil => rfl
  | cons a l ih =>
    have h := idxOf_prefix (pack_prefix (text := text) l (packPart text written a).1) (mem_packPart written a)
    simp only [pack, unpack, unpackPart_packPart, ih, List.map_cons, h]

/-- A receiver that has read what the sender has written so far. -/
theorem receive_dumpAll (msg : List (List Part)) (written : List Part) (r : List String) :
    ∃ tokens W, dumpAll text msg ⟨written, r⟩ = (.ok tokens, ⟨W, r⟩) ∧ written <+: W ∧
      (∀ a ∈ msg.flatten, a ∈ W) ∧ (∀ q, receive tokens ⟨q, written.map text⟩ =
        (.ok (msg.map (·.map fun a => (W.idxOf a, text a))), ⟨q, W.map text⟩)) ∧
      ∀ e l, msg = e :: l → (pack text written e).1 <+: W := by
  induction msg generalizing written with
  | nil => exact ⟨[], written, rfl, List.prefix_rfl, by simp, fun q => rfl, by simp⟩
  | cons e l ih =>
    obtain ⟨tokens, W, h₁, h₂, h₃, h₄, -⟩ := ih (pack text written e).1
    refine ⟨(pack text written e).2 :: tokens, W, ?_, (pack_prefix e written).trans h₂, ?_, fun q => ?_, ?_⟩
    · simp only [dumpAll, bind, Py.bind, dumps, h₁, Pure.pure, Py.pure]
    · intro a ha
      rw [List.flatten_cons, List.mem_append] at ha
      exact ha.elim (fun ha => h₂.subset (mem_pack e written a ha)) (h₃ a)
    · simp only [receive, bind, Py.bind, loads, unpack_pack, h₄, Pure.pure, Py.pure, List.map_cons]
      congr 3
      refine List.map_congr_left fun a ha => ?_
      rw [idxOf_prefix h₂ (mem_pack e written a ha)]
    · rintro _ _ ⟨⟩
      exact h₂

theorem send_eq (msg : List (List Part)) (s : Process) : send text msg s = dumpAll text msg {} := rfl

theorem intact {msg : List (List Part)} {W : List Part} (hW : ∀ a ∈ msg.flatten, a ∈ W) :
    ArrivedIntact text msg (msg.map (·.map fun a => (W.idxOf a, text a))) := by
  constructor
  · simp [Function.comp_def]
  · intro i j a b x y ha hb hx hy
    rw [← List.map_flatten, List.getElem?_map] at hx hy
    rw [ha] at hx
    rw [hb] at hy
    cases hx
    cases hy
    exact List.idxOf_inj (hW a (List.mem_of_getElem? ha))

/-- To a process that has read nothing, messages arrive as they were sent. -/
theorem transfer_fresh (toRight : Bool) (msg : List (List Part)) (w : Pair)
    (h : (if toRight then w.right else w.left).read = []) :
    ∃ got w', transfer text toRight msg w = (.ok got, w') ∧ ArrivedIntact text msg got ∧
      (if toRight then w'.left else w'.right).read = [] ∧
      (∀ a e l, msg = (a :: e) :: l → ∃ rest, (if toRight then w'.right else w'.left).read = text a :: rest) := by
  obtain ⟨tokens, W, h₁, -, h₃, h₄, h₂⟩ := receive_dumpAll (text := text) msg [] []
  have h₅ := h₄ (if toRight then w.right else w.left).written
  have e : (⟨(if toRight then w.right else w.left).written, ([] : List Part).map text⟩ : Process) =
      if toRight then w.right else w.left := by
    rw [List.map_nil, ← h]
  rw [e] at h₅
  refine ⟨_, if toRight then ⟨⟨W, []⟩, ⟨(if toRight then w.right else w.left).written, W.map text⟩⟩
      else ⟨⟨(if toRight then w.right else w.left).written, W.map text⟩, ⟨W, []⟩⟩, ?_, intact h₃, ?_⟩
  · unfold transfer
    simp only [send_eq, h₁, h₅]
  · constructor
    · cases toRight <;> rfl
    · rintro a e l rfl
      have h : [a] <+: W := (pack_prefix (text := text) e [a]).trans (h₂ (a :: e) l rfl)
      obtain ⟨rest, rfl⟩ := h
      exact ⟨rest.map text, by cases toRight <;> simp⟩

theorem pack_new (e written : List Part) (hn : e.Nodup) (hd : ∀ a ∈ e, a ∉ written) :
    pack text written e = (written ++ e, e.map fun a => .define (text a)) := by
  induction e generalizing written with
  | nil => simp [pack]
  | cons a l ih =>
    have ha := hd a (by simp)
    rw [List.nodup_cons] at hn
    have := ih (written ++ [a]) hn.2 fun b hb hm => by
      rcases List.mem_append.1 hm with hm | hm
      · exact hd b (by simp [hb]) hm
      · rw [List.mem_singleton] at hm
        exact hn.1 (hm ▸ hb)
    simp [pack, packPart, ha, this]

theorem unpack_new (e : List Part) (read : List String) :
    ∃ got, unpack read (e.map fun a => .define (text a)) = .ok (read ++ e.map text, got) ∧
      got.map Prod.snd = e.map text ∧ ∀ i x, got[i]? = some x → x.1 = read.length + i := by
  induction e generalizing read with
  | nil => exact ⟨[], by simp [unpack], rfl, by simp⟩
  | cons a l ih =>
    obtain ⟨got, h₁, h₂, h₃⟩ := ih (read ++ [text a])
    refine ⟨(read.length, text a) :: got, ?_, by simp [h₂], fun i x hx => ?_⟩
    · simp only [List.map_cons, unpack, unpackPart, h₁]
      simp
    · cases i with
      | zero => cases hx; rfl
      | succ i =>
        have := h₃ i x (by simpa using hx)
        simp only [List.length_append, List.length_singleton] at this
        omega

theorem dumpAll_new (msg : List (List Part)) (written : List Part) (r : List String) (hn : msg.flatten.Nodup)
    (hd : ∀ a ∈ msg.flatten, a ∉ written) : dumpAll text msg ⟨written, r⟩ =
      (.ok (msg.map (·.map fun a => .define (text a))), ⟨written ++ msg.flatten, r⟩) := by
  induction msg generalizing written with
  | nil => simp [dumpAll, Pure.pure, Py.pure]
  | cons e l ih =>
    rw [List.flatten_cons] at hn hd
    have h₀ := List.nodup_append.1 hn
    have h₁ := pack_new (text := text) e written h₀.1 fun a ha => hd a (List.mem_append_left _ ha)
    have h₂ := ih (written ++ e) h₀.2.1 fun b hb hm => by
      rcases List.mem_append.1 hm with hm | hm
      · exact hd b (List.mem_append_right _ hb) hm
      · exact h₀.2.2 b hm b hb rfl
    simp only [dumpAll, bind, Py.bind, dumps, h₁, h₂, Pure.pure, Py.pure]
    simp

theorem receive_new (msg : List (List Part)) (q : List Part) (read : List String) :
    ∃ got, receive (msg.map (·.map fun a => .define (text a))) ⟨q, read⟩ =
        (.ok got, ⟨q, read ++ msg.flatten.map text⟩) ∧
      got.map (·.map Prod.snd) = msg.map (·.map text) ∧
      ∀ i x, got.flatten[i]? = some x → x.1 = read.length + i := by
  induction msg generalizing read with
  | nil => exact ⟨[], by simp [receive, Pure.pure, Py.pure], rfl, by simp⟩
  | cons e l ih =>
    obtain ⟨g, h₁, h₂, h₃⟩ := unpack_new (text := text) e read
    obtain ⟨got, k₁, k₂, k₃⟩ := ih (read ++ e.map text)
    refine ⟨g :: got, ?_, by simp [h₂, k₂], fun i x hx => ?_⟩
    · simp only [List.map_cons, receive, bind, Py.bind, loads, h₁, k₁, Pure.pure, Py.pure]
      simp
    · have hl : g.length = e.length := by simpa using congrArg List.length h₂
      rw [List.flatten_cons] at hx
      rcases Nat.lt_or_ge i g.length with hi | hi
      · rw [List.getElem?_append_left hi] at hx
        exact h₃ i x hx
      · rw [List.getElem?_append_right hi] at hx
        have := k₃ _ x hx
        simp only [List.length_append, List.length_map] at this
        omega

/-- Messages without sharing arrive as they were sent. -/
theorem transfer_new (toRight : Bool) (msg : List (List Part)) (hn : NothingShared msg) (w : Pair) :
    ∃ got w', transfer text toRight msg w = (.ok got, w') ∧ ArrivedIntact text msg got := by
  have h₁ := dumpAll_new (text := text) msg [] [] hn (by simp)
  obtain ⟨got, k₁, k₂, k₃⟩ := receive_new (text := text) msg (if toRight then w.right else w.left).written
    (if toRight then w.right else w.left).read
  refine ⟨got, if toRight then ⟨⟨msg.flatten, []⟩, ⟨w.right.written, w.right.read ++ msg.flatten.map text⟩⟩
      else ⟨⟨w.left.written, w.left.read ++ msg.flatten.map text⟩, ⟨msg.flatten, []⟩⟩, ?_, k₂, ?_⟩
  · unfold transfer
    simp only [send_eq]
    rw [h₁]
    cases toRight
    · have k : receive _ w.left = _ := k₁
      simp only [Bool.false_eq_true, if_false, k, List.nil_append]
    · have k : receive _ w.right = _ := k₁
      simp only [if_true, k, List.nil_append]
  · intro i j a b x y ha hb hx hy
    rw [k₃ i x hx, k₃ j y hy]
    constructor
    · intro h
      obtain rfl : i = j := by omega
      exact Option.some.inj (ha.symm.trans hb)
    · rintro rfl
      have := (List.getElem?_inj (List.getElem?_eq_some_iff.1 ha).1 hn).1 (ha.trans hb.symm)
      omega

/-- Reading raises nothing when at least as many parts were read as written. -/
theorem unpack_ok (e written : List Part) (read : List String) (h : written.length ≤ read.length) :
    ∃ done, unpack read (pack text written e).2 = .ok done := by
  induction e generalizing written read with
  | nil => exact ⟨_, rfl⟩
  | cons a l ih =>
    by_cases ha : a ∈ written
    · have hi := List.idxOf_lt_length_iff.2 ha
      obtain ⟨done, hd⟩ := ih written read h
      refine ⟨(done.1, (written.idxOf a, read[written.idxOf a]'(by omega)) :: done.2), ?_⟩
      · simp only [pack, packPart, if_pos ha, unpack, unpackPart,
          List.getElem?_eq_getElem (show written.idxOf a < read.length by omega), hd]
    · obtain ⟨done, hd⟩ := ih (written ++ [a]) (read ++ [text a]) (by simp; omega)
      exact ⟨(done.1, (read.length, text a) :: done.2), by
        simp only [pack, packPart, if_neg ha, unpack, unpackPart, hd]⟩

/-- A process that has read before takes an earlier part for a repeated one. -/
theorem transfer_stale (toRight : Bool) (b : Part) (e : List Part) (w : Pair) {t : String} {rest : List String}
    (h : (if toRight then w.right else w.left).read = t :: rest) :
    ∃ first more w', transfer text toRight [[b], b :: e] w = (.ok [first, (0, t) :: more], w') := by
  obtain ⟨done, hd⟩ := unpack_ok (text := text) e [b] (t :: rest ++ [text b]) (by simp)
  have hs : dumpAll text [[b], b :: e] {} = (.ok [[.define (text b)], .refer 0 :: (pack text [b] e).2],
      ⟨(pack text [b] e).1, []⟩) := by
    simp [dumpAll, bind, Py.bind, dumps, pack, packPart, Pure.pure, Py.pure]
  have hr : ∀ q : Process, q.read = t :: rest → receive [[.define (text b)], .refer 0 :: (pack text [b] e).2] q =
      (.ok [[((t :: rest).length, text b)], (0, t) :: done.2], ⟨q.written, done.1⟩) := by
    intro q hq
    simp only [receive, bind, Py.bind, loads, unpack, unpackPart, hq, Pure.pure, Py.pure]
    simp only [List.cons_append, List.getElem?_cons_zero, unpack] at hd ⊢
    simp only [hd]
  unfold transfer
  simp only [send_eq, hs, hr _ h]
  exact ⟨_, _, _, rfl⟩

end Verif.Pickling
