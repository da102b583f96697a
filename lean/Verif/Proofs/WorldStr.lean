import Verif.Spec.World
import Verif.Props.Str
set_option autoImplicit false
/-! # The functions on strings of `Verif.Spec.World` and the specifications of the string methods -/
namespace Yasl

theorem firstAt_some {a s : List Byte} {i : Nat} (h : AWorld.firstAt a s = some i) : a <+: s.drop i ∧ i ≤ s.length ∧ ∀ j < i, ¬ a <+: s.drop j := by
  rw [AWorld.firstAt, List.find?_range_eq_some] at h
  obtain ⟨h1, h2, h3⟩ := h
  refine ⟨by simpa using h1, by simp at h2; omega, fun j hj => by simpa using h3 j hj⟩

theorem firstAt_none {a s : List Byte} (h : AWorld.firstAt a s = none) : ¬ a <:+: s := by
  rw [AWorld.firstAt, List.find?_eq_none] at h
  rintro ⟨p, q, rfl⟩
  refine h p.length (by simp; omega) ?_
  rw [List.append_assoc, List.drop_left]
  simp

theorem pieces_cut {a : List Byte} (ha : a ≠ []) : ∀ (n : Nat) (s : List Byte), s.length ≤ n → Cut a s (AWorld.pieces a n s)
  | 0, s, h => by
    have : s = [] := List.length_eq_zero_iff.1 (by omega)
    subst this
    exact .last _ (by simpa using ha)
  | n + 1, s, h => by
    rw [AWorld.pieces]
    cases hf : AWorld.firstAt a s with
    | none => exact .last _ (firstAt_none hf)
    | some i =>
      obtain ⟨⟨r, hr⟩, h2, h3⟩ := firstAt_some hf
      have hal := List.length_pos_iff.2 ha
      have hs : s = s.take i ++ a ++ r := by rw [List.append_assoc, hr, List.take_append_drop]
      have hd : s.drop (i + a.length) = r := by rw [← List.drop_drop, ← hr, List.drop_left]
      have hl : r.length ≤ n := by
        have := congrArg List.length hr
        simp at this
        omega
      dsimp only
      rw [hd]
      conv => arg 2; rw [hs]
      refine .cons _ _ _ (fun j hj => ?_) (pieces_cut ha n r hl)
      rw [← hs]
      exact h3 j (by simp at hj; omega)

theorem trimLeft_eq (s : List Byte) : AWorld.trimLeft s = s.dropWhile isWs := by
  rw [AWorld.trimLeft]; congr 1; funext c; simp [isWs, Bool.or_assoc]; rfl

theorem trimRight_eq (s : List Byte) : (AWorld.trimLeft s.reverse).reverse = s.rdropWhile isWs := by
  rw [trimLeft_eq, List.rdropWhile]

theorem inWord_eq : AWorld.words.inWord = fun c => !isWs c := by
  funext c
  have := isWs_iff c
  rw [IsSpace] at this
  rw [AWorld.words.inWord]
  by_cases h : isWs c = true
  · rw [h, decide_eq_false (fun hc => hc (by exact this.1 h))]; rfl
  · have h' := fun hc => h (this.2 hc)
    rw [Bool.eq_false_iff.2 h, decide_eq_true (by exact h')]; rfl

theorem words_words : ∀ (n : Nat) (s : List Byte), s.length < n → Words s (AWorld.words n s)
  | 0, s, h => by omega
  | n + 1, s, h => by
    rw [AWorld.words]
    have e := trimLeft_eq s
    have hlen : (s.dropWhile isWs).length ≤ s.length := (List.dropWhile_sublist _).length_le
    cases ht : AWorld.trimLeft s with
    | nil => exact (Words.none (by rw [← e, ht])).2 rfl
    | cons c r =>
      have hne : s.dropWhile isWs ≠ [] := by rw [← e, ht]; simp
      rw [Words.some hne, ← e, ht, inWord_eq]
      refine ⟨_, rfl, words_words n _ ?_⟩
      have hc : (fun c => !isWs c) c = true := by
        have := dropWhile_head (p := isWs) s c (by rw [← e, ht]; rfl)
        simp [this]
      rw [List.dropWhile_cons_of_pos (p := fun c => !isWs c) hc]
      have := (List.dropWhile_sublist (l := r) fun c => !isWs c).length_le
      rw [← e, ht] at hlen
      simp at hlen
      omega

theorem stripLeft_eq {t : List Byte} (ht : t ≠ []) {u : List Byte} (hu : ¬ t <+: u) : ∀ (k n : Nat), (repeatBytes k t ++ u).length ≤ n → AWorld.stripLeft t n (repeatBytes k t ++ u) = u
  | 0, 0, h => by simp [AWorld.stripLeft, repeatBytes]
  | 0, n + 1, h => by
    have : repeatBytes 0 t ++ u = u := by simp [repeatBytes]
    rw [this, AWorld.stripLeft, if_neg hu]
  | k + 1, 0, h => by
    have := List.length_pos_iff.2 ht
    rw [repeatBytes_succ] at h
    simp only [List.length_append] at h; omega
  | k + 1, n + 1, h => by
    have := List.length_pos_iff.2 ht
    rw [repeatBytes_succ, List.append_assoc] at h ⊢
    rw [AWorld.stripLeft, if_pos (List.prefix_append _ _), List.drop_left]
    exact stripLeft_eq ht hu k n (by simp at h ⊢; omega)

theorem repeatBytes_reverse (t : List Byte) : ∀ k, (repeatBytes k t).reverse = repeatBytes k t.reverse
  | 0 => rfl
  | k + 1 => by rw [repeatBytes_succ, List.reverse_append, repeatBytes_reverse t k, ← repeatBytes_succ']

theorem stripRight_eq {t : List Byte} (ht : t ≠ []) {u : List Byte} (hu : ¬ t <:+ u) (k n : Nat) (h : (u ++ repeatBytes k t).length ≤ n) :
    AWorld.stripRight t n (u ++ repeatBytes k t) = u := by
  rw [AWorld.stripRight, List.reverse_append, repeatBytes_reverse, stripLeft_eq (by simpa using ht) (by simpa using hu), List.reverse_reverse]
  simpa [repeatBytes_length, Nat.add_comm] using h

theorem ltrimmed_eq {s t : List Byte} (h : LTrimmed IsSpace s t) : t = s.dropWhile isWs := by
  obtain ⟨l, rfl, h1, h2⟩ := h
  exact (takeWhile_append_stop (p := isWs) (fun c hc => (isWs_iff c).2 (h1 c hc)) fun c hc => (isWs_not_iff c).2 (h2 c hc)).2.symm

theorem rtrimmed_eq {s t : List Byte} (h : RTrimmed IsSpace s t) : t = s.rdropWhile isWs := by
  obtain ⟨l, rfl, h1, h2⟩ := h
  have := (takeWhile_append_stop (p := isWs) (a := l.reverse) (b := t.reverse) (fun c hc => (isWs_iff c).2 (h1 c (by simpa using hc))) fun c hc =>
    (isWs_not_iff c).2 (h2 c (by simpa using hc))).2
  rw [List.rdropWhile, List.reverse_append, this, List.reverse_reverse]

/-- `trim` with an argument, as far as it is defined. -/
theorem strTrim_eq {h n : YStr} {hb nb : List Byte} (hh : h.Holds hb) (hn : n.Holds nb) (hne : nb ≠ []) (f : Nat) (hf : hb.length < f)
    (hov : hb.length ≤ (AWorld.stripLeft nb hb.length hb).length + (AWorld.stripRight nb hb.length hb).length) :
    ∃ p, strTrim f h n = some (.ok p) ∧
      p.Holds ((AWorld.stripLeft nb hb.length hb).take ((AWorld.stripLeft nb hb.length hb).length + (AWorld.stripRight nb hb.length hb).length - hb.length)) := by
  obtain ⟨st, k, h1, h2, h3, h4, h5⟩ := ltrimLoop_spec hh hn hne f 0 (by omega) (by omega)
  obtain ⟨e, j, g1, g2, g4, g5⟩ := rtrimLoop_spec hh hn hne f hb.length le_rfl (by omega)
  simp only [List.drop_zero, Nat.zero_add] at h4 h2
  rw [List.take_length] at g4
  have hl : AWorld.stripLeft nb hb.length hb = hb.drop st := by
    have := stripLeft_eq hne h5 k hb.length (by rw [← h4])
    rwa [← h4] at this
  have hr : AWorld.stripRight nb hb.length hb = hb.take e := by
    have := stripRight_eq hne g5 j hb.length (by rw [← g4])
    rwa [← g4] at this
  rw [hl, hr] at hov ⊢
  rw [List.length_drop, List.length_take, Nat.min_eq_left (by omega)] at hov ⊢
  obtain ⟨p, hp1, hp2⟩ := hh.piece (show st ≤ e by omega) (by omega : e ≤ hb.length)
  refine ⟨p, ?_, ?_⟩
  · rw [strTrim, h1, Run.bind_ok, hh.len, g1, Run.bind_ok, YStr.piece, hp1]
  · rwa [show hb.length - st + e - hb.length = e - st by omega]

end Yasl
