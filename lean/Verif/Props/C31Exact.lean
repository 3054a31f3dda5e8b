import Verif.Lemmas.Destroy
import Verif.Props.C31
/-! # C31: exactly which publishers can be destroyed -/

namespace Verif
open PW

/-- a publisher whose subscribers point to it or nowhere -/
private structure MixSubs (p : PubId) (l : List SubId) (w : PW) : Prop where
  subs : (w.pubs p).subscribers = l
  nodup : l.Nodup
  ptr : ∀ s ∈ l, w.ptr s = some p ∨ w.ptr s = none
  alive : ∀ s ∈ l, s ∉ w.deadSubs
  inside : (w.pubs p).insideNotify = false
  pubAlive : p ∉ w.deadPubs

/-- on the reversed list: behind each subscriber that points to the publisher there is one that points nowhere -/
private def Shielded (ptr : SubId → Option PubId) (p : PubId) : List SubId → Prop
  | [] => True
  | s :: r => (ptr s = some p → ∃ t r', r = t :: r' ∧ ptr t = none) ∧ Shielded ptr p r

private theorem shielded_congr {ptr ptr' : SubId → Option PubId} {p : PubId} : ∀ {r : List SubId}, (∀ s ∈ r, ptr s = ptr' s) →
    (Shielded ptr p r ↔ Shielded ptr' p r)
  | [], _ => Iff.rfl
  | s :: r, h => by
    unfold Shielded
    rw [h s (by simp), shielded_congr (fun x hx => h x (by simp [hx]))]
    refine and_congr_left fun _ => imp_congr_right fun _ => ?_
    constructor <;> rintro ⟨t, r', rfl, e⟩
    · exact ⟨t, r', rfl, by rw [← h t (by simp)]; exact e⟩
    · exact ⟨t, r', rfl, by rw [h t (by simp)]; exact e⟩

private theorem shielded_iff {ptr : SubId → Option PubId} {p : PubId} : ∀ {r : List SubId}, Shielded ptr p r ↔
    ∀ pre s suf, r = pre ++ s :: suf → ptr s = some p → ∃ t suf', suf = t :: suf' ∧ ptr t = none
  | [] => by simp [Shielded]
  | x :: r => by
    unfold Shielded
    rw [shielded_iff]
    constructor
    · rintro ⟨h1, h2⟩ pre s suf e hs
      cases pre with
      | nil =>
        simp only [List.nil_append, List.cons.injEq] at e
        obtain ⟨rfl, rfl⟩ := e
        exact h1 hs
      | cons y pre =>
        simp only [List.cons_append, List.cons.injEq] at e
        exact h2 pre s suf e.2 hs
    · intro h
      exact ⟨fun hx => h [] x r rfl hx, fun pre s suf e hs => h (x :: pre) s suf (by rw [e]; rfl) hs⟩

private theorem unsub_own (env : PEnv) (d : SubId → Event → PW → Res PW Unit) {p : PubId} {l : List SubId} {s : SubId} {w : PW}
    (h : MixSubs p (l ++ [s]) w) (hs : w.ptr s = some p) :
    ∃ w', subUnsubscribe env d s w = .ok () w' ∧ (w'.pubs p).subscribers = l ∧ (w'.pubs p).insideNotify = false ∧
      w'.ptr = (fun t => if t = s then none else w.ptr t) ∧ w'.deadSubs = w.deadSubs ∧ w'.deadPubs = w.deadPubs := by
  unfold subUnsubscribe
  rw [if_neg (h.alive s (by simp)), hs]
  have : pubUnsubscribe env d p s false w = .ok () (w.setPub p (leave s (w.pubs p))) := by
    simp [pubUnsubscribe, h.pubAlive]
  simp only [this]
  refine ⟨_, rfl, ?_, ?_, rfl, rfl, rfl⟩
  · have hx := unsub_eq (x := w.pubs p) s (by rw [h.subs]; exact h.nodup) h.inside
    simp only [setPtr, setPub, if_true]
    rw [hx.1, h.subs]
    have hs : s ∉ l := by
      have := h.nodup; rw [List.nodup_append] at this
      intro hm; exact this.2.2 s hm s (by simp) rfl
    rw [List.filter_append]
    have : l.filter (fun t => !decide (t = s)) = l := List.filter_eq_self.2 (fun t ht => by
      have : t ≠ s := fun e => hs (e ▸ ht)
      simp [this])
    simp [this]
  · have hx := unsub_eq (x := w.pubs p) s (by rw [h.subs]; exact h.nodup) h.inside
    simp only [setPtr, setPub, if_true]; exact hx.2.1

private theorem destroyLoop_mix (env : PEnv) (d : SubId → Event → PW → Res PW Unit) {p : PubId} : ∀ (n : Nat) {r : List SubId} {w : PW},
    MixSubs p r.reverse w → r.length ≤ n →
    ((∃ m, destroyLoop env d p n w = .ub m) ∧ ¬ Shielded w.ptr p r) ∨
    ∃ w', destroyLoop env d p n w = .ok () w' ∧ (∀ s, s ∉ r → w'.ptr s = w.ptr s) ∧
      ((∀ s ∈ r, w'.ptr s ≠ some p) ↔ Shielded w.ptr p r) := by
  intro n
  induction n using Nat.strongRecOn with
  | ind n ih =>
    intro r w h hn
    cases r with
    | nil =>
      refine Or.inr ⟨w, ?_, fun _ _ => rfl, by simp [Shielded]⟩
      unfold destroyLoop; rw [h.subs]; rfl
    | cons s r =>
      obtain ⟨n, rfl⟩ : ∃ m, n = m + 1 := ⟨n - 1, by simp at hn; omega⟩
      simp only [List.reverse_cons] at h
      have hnd := h.nodup
      rw [List.nodup_append] at hnd
      have hlast : (w.pubs p).subscribers.getLast? = some s := by rw [h.subs]; simp
      have hsr : s ∉ r := fun hm => hnd.2.2 s (by simp [hm]) s (by simp) rfl
      have hlen : r.length ≤ n := by simp at hn; omega
      rcases h.ptr s (by simp) with hs | hs
      · obtain ⟨w', e1, h1, h2, h3, h4, h5⟩ := unsub_own env d h hs
        cases r with
        | nil =>
          refine Or.inl ⟨⟨"~GraphEventPublisher: pop_back of an empty vector", ?_⟩, ?_⟩
          · unfold destroyLoop
            rw [hlast]
            simp only [e1]
            rw [h1]
            simp
          · rintro ⟨h6, -⟩
            obtain ⟨t, r', e, -⟩ := h6 hs
            cases e
        | cons t r =>
          have hts : t ≠ s := fun e => hsr (by simp [e])
          have htr : t ∉ r := by
            have := hnd.1
            rw [List.nodup_reverse] at this
            exact (List.nodup_cons.1 this).1
          have hne : ∀ x ∈ r, x ≠ s := fun x hx e => hsr (by simp [← e, hx])
          have hm : MixSubs p r.reverse (w'.setPub p { w'.pubs p with subscribers := r.reverse }) := by
            refine ⟨by simp [setPub], ?_, ?_, ?_, by simp [setPub, h2], by simpa [setPub, h5] using h.pubAlive⟩
            · have := hnd.1
              rw [List.nodup_reverse] at this ⊢
              exact (List.nodup_cons.1 this).2
            · intro x hx
              rw [List.mem_reverse] at hx
              simp only [setPub, h3, hne x hx, if_false]
              exact h.ptr x (by simp [hx])
            · intro x hx
              rw [List.mem_reverse] at hx
              simpa [setPub, h4] using h.alive x (by simp [hx])
          have hloop : destroyLoop env d p (n + 1) w =
              destroyLoop env d p n (w'.setPub p { w'.pubs p with subscribers := r.reverse }) := by
            conv_lhs => unfold destroyLoop
            rw [hlast]
            simp only [e1]
            rw [h1]
            simp
          have hptr : ∀ x, x ≠ s → (w'.setPub p { w'.pubs p with subscribers := r.reverse }).ptr x = w.ptr x := by
            intro x hx; simp [setPub, h3, hx]
          have hc := shielded_congr (p := p) (fun x hx => hptr x (hne x hx))
          rw [hloop]
          have hsh : Shielded w.ptr p (s :: t :: r) ↔ w.ptr t = none ∧ Shielded w.ptr p r := by
            simp only [Shielded]
            constructor
            · rintro ⟨h6, -, h7⟩
              obtain ⟨t', r', e, h8⟩ := h6 hs
              cases e
              exact ⟨h8, h7⟩
            · rintro ⟨h6, h7⟩
              exact ⟨fun _ => ⟨t, r, rfl, h6⟩, ⟨fun h8 => (by rw [h6] at h8; cases h8), h7⟩⟩
          rw [hsh]
          rcases ih n (by omega) hm (by simp at hlen; omega) with ⟨g1, g2⟩ | ⟨w2, g1, g2, g3⟩
          · exact Or.inl ⟨g1, fun h6 => g2 (hc.2 h6.2)⟩
          · refine Or.inr ⟨w2, g1, ?_, ?_⟩
            · intro x hx
              simp only [List.mem_cons, not_or] at hx
              rw [g2 x hx.2.2, hptr x hx.1]
            · rw [hc] at g3
              rw [← g3]
              have ht2 : w2.ptr t = w.ptr t := by rw [g2 t htr, hptr t hts]
              have hs2 : w2.ptr s = none := by
                rw [g2 s (fun hx => hne s hx rfl)]
                simp [setPub, h3]
              constructor
              · intro h6
                refine ⟨?_, fun x hx => h6 x (by simp [hx])⟩
                have := h6 t (by simp)
                rw [ht2] at this
                exact (h.ptr t (by simp)).resolve_left this
              · rintro ⟨h6, h7⟩ x hx
                simp only [List.mem_cons] at hx
                rcases hx with rfl | rfl | hx
                · rw [hs2]; simp
                · rw [ht2, h6]; simp
                · exact h7 x hx
      · have e1 : subUnsubscribe env d s w = .ok () w := by
          unfold subUnsubscribe
          rw [if_neg (h.alive s (by simp)), hs]
        have hloop : destroyLoop env d p (n + 1) w =
            destroyLoop env d p n (w.setPub p { w.pubs p with subscribers := r.reverse }) := by
          conv_lhs => unfold destroyLoop
          rw [hlast]
          simp only [e1]
          rw [h.subs]
          simp
        have hm : MixSubs p r.reverse (w.setPub p { w.pubs p with subscribers := r.reverse }) := by
          refine ⟨by simp [setPub], hnd.1, ?_, ?_, by simp [setPub, h.inside], h.pubAlive⟩
          · intro x hx
            exact h.ptr x (by simpa using Or.inl (List.mem_reverse.1 hx))
          · intro x hx
            exact h.alive x (by simpa using Or.inl (List.mem_reverse.1 hx))
        have hsh : Shielded w.ptr p (s :: r) ↔ Shielded w.ptr p r := by
          simp only [Shielded, hs]
          simp
        rw [hloop, hsh]
        rcases ih n (by omega) hm hlen with ⟨g1, g2⟩ | ⟨w2, g1, g2, g3⟩
        · exact Or.inl ⟨g1, g2⟩
        · refine Or.inr ⟨w2, g1, fun x hx => g2 x (fun hm => hx (by simp [hm])), ?_⟩
          have hs2 : w2.ptr s = none := by rw [g2 s hsr]; exact hs
          rw [show Shielded w.ptr p r ↔ ∀ x ∈ r, w2.ptr x ≠ some p from g3.symm]
          simp [hs2]

/-- Exactly which publishers can be destroyed, however its subscribers were entered.  Let each subscriber point to the publisher (entered with
`s.subscribe(p)`) or nowhere (entered with `p.subscribe(&s)`).  The destructor works exactly if directly before each subscriber that points to the
publisher there is one in the list that does not. -/
theorem C31_exact (env : PEnv) (n : Nat) (w : PW) (p : PubId) (hp : p ∉ w.deadPubs) (hi : (w.pubs p).insideNotify = false)
    (hnd : (w.pubs p).subscribers.Nodup) (hal : ∀ s ∈ (w.pubs p).subscribers, s ∉ w.deadSubs)
    (hptr : ∀ s ∈ (w.pubs p).subscribers, w.ptr s = some p ∨ w.ptr s = none) (hall : ∀ s, w.ptr s = some p → s ∈ (w.pubs p).subscribers) :
    (∃ w', act env (n + 1) (.destroyPub p) w = .ok () w' ∧ ∀ s, w'.ptr s ≠ some p) ↔
      ∀ before s after, (w.pubs p).subscribers = before ++ s :: after → w.ptr s = some p →
        ∃ before' t, before = before' ++ [t] ∧ w.ptr t = none := by
  have hm : MixSubs p (w.pubs p).subscribers.reverse.reverse w := by
    rw [List.reverse_reverse]; exact ⟨rfl, hnd, hptr, hal, hi, hp⟩
  have hsh : Shielded w.ptr p (w.pubs p).subscribers.reverse ↔
      ∀ before s after, (w.pubs p).subscribers = before ++ s :: after → w.ptr s = some p →
        ∃ before' t, before = before' ++ [t] ∧ w.ptr t = none := by
    rw [shielded_iff]
    constructor
    · intro h before s after e hs
      obtain ⟨t, suf', e1, e2⟩ := h after.reverse s before.reverse (by rw [e]; simp) hs
      exact ⟨suf'.reverse, t, by simpa using congrArg List.reverse e1, e2⟩
    · intro h pre s suf e hs
      obtain ⟨before', t, e1, e2⟩ := h suf.reverse s pre.reverse (by simpa using congrArg List.reverse e) hs
      exact ⟨t, before'.reverse, by simpa using congrArg List.reverse e1, e2⟩
  rw [← hsh]
  simp only [act, destroyPub, if_neg hp]
  rcases destroyLoop_mix env _ (w.pubs p).subscribers.length hm (by simp) with ⟨⟨m, g1⟩, g2⟩ | ⟨w2, g1, g2, g3⟩
  · rw [g1]
    refine ⟨fun ⟨_, h, _⟩ => (by cases h), fun h => (g2 h).elim⟩
  · rw [g1]
    simp only
    constructor
    · rintro ⟨w', h, h2⟩
      cases h
      exact g3.1 fun s _ => h2 s
    · intro h
      refine ⟨_, rfl, fun s => ?_⟩
      by_cases hs : s ∈ (w.pubs p).subscribers
      · exact g3.2 h s (by simpa using hs)
      · intro h3
        rw [show _ = w2.ptr s from rfl, g2 s (by simpa using hs)] at h3
        exact hs (hall s h3)

/-- entered by the publisher, then by itself: works; the other way round it does not -/
example : let env : PEnv := ⟨fun _ _ _ => [], fun _ _ => [], fun _ _ => []⟩
    (PW.run env 1 [.pubSubscribe 7 1 false, .subscribe 2 7 false, .destroyPub 7] PW.init).map (fun w => (w.ptr 1, w.ptr 2)) = some (none, none) ∧
    (PW.run env 1 [.subscribe 2 7 false, .pubSubscribe 7 1 false, .destroyPub 7] PW.init).isNone = true ∧
    (PW.run env 1 [.subscribe 2 7 false, .subscribe 1 7 false, .destroyPub 7] PW.init).map (fun w => (w.ptr 2, w.ptr 1)) =
      some (some 7, none) := ⟨rfl, rfl, rfl⟩

end Verif
