import Verif.Lemmas.Handlers
/-!
# Lemmas: handlers that destroy subscribers
-/
set_option linter.unusedSimpArgs false

namespace Verif
open PW

variable {env : PEnv}

/-- what the calls `delete t` for `t ∈ ks` in a handler of an event of `p` do -/
structure Killed (p : PubId) (ks : List SubId) (w w' : PW) : Prop where
  dead : ∀ t, t ∈ w'.deadSubs ↔ t ∈ ks ∨ t ∈ w.deadSubs
  deadP : w'.deadPubs = w.deadPubs
  log : w'.log = w.log
  pub : w'.pubs p = { w.pubs p with toBeUnsubscribed := (w.pubs p).toBeUnsubscribed ++ ks.filter (fun t => w.ptr t = some p) }
  ptr : ∀ t, w'.ptr t = if t ∈ ks then none else w.ptr t

theorem kill_one (n : Nat) (p : PubId) (t : SubId) (w : PW) (hin : (w.pubs p).insideNotify = true) (hP : w.deadPubs = [])
    (ht : t ∉ w.deadSubs) : ∃ w', act env (n + 1) (.destroySub t) w = .ok () w' ∧ Killed p [t] w w' := by
  cases hq : w.ptr t with
  | none =>
    refine ⟨{ w with deadSubs := t :: w.deadSubs }, by simp only [act, subUnsubscribe, if_neg ht, hq],
      ⟨by simp, rfl, rfl, by simp [hq], fun u => ?_⟩⟩
    by_cases hu : u = t
    · subst hu; simp [hq]
    · simp [hu]
  | some q =>
    have h1 : PW.pubUnsubscribe env (deliver env (act env n)) q t false w = .ok () (w.setPub q (leave t (w.pubs q))) := by
      simp [PW.pubUnsubscribe, hP]
    refine ⟨{ (w.setPub q (leave t (w.pubs q))).setPtr t none with deadSubs := t :: w.deadSubs },
      by simp only [act, subUnsubscribe, if_neg ht, hq, h1]; rfl, ⟨by simp [PW.setPtr, PW.setPub], rfl, rfl, ?_, fun u => ?_⟩⟩
    · by_cases hqp : q = p
      · subst hqp; simp [PW.setPtr, PW.setPub, leave, hin, hq]
      · have : p ≠ q := fun h => hqp h.symm
        simp [PW.setPtr, PW.setPub, this, hq, hqp]
    · by_cases hu : u = t
      · subst hu; simp [PW.setPtr]
      · simp [PW.setPtr, PW.setPub, hu]

theorem kill_dead (n : Nat) (t : SubId) (w : PW) (ht : t ∈ w.deadSubs) :
    act env (n + 1) (.destroySub t) w = .ub "unsubscribe: destroyed subscriber" := by
  simp [act, subUnsubscribe, ht]

theorem kill_all (n : Nat) (p : PubId) (ks : List SubId) (w : PW) (hin : (w.pubs p).insideNotify = true) (hP : w.deadPubs = []) :
    (ks.Nodup ∧ (∀ t ∈ ks, t ∉ w.deadSubs) →
      ∃ w', seqAll (act env (n + 1)) (ks.map Act.destroySub) w = .ok () w' ∧ Killed p ks w w') ∧
    (¬ (ks.Nodup ∧ ∀ t ∈ ks, t ∉ w.deadSubs) →
      seqAll (act env (n + 1)) (ks.map Act.destroySub) w = .ub "unsubscribe: destroyed subscriber") := by
  induction ks generalizing w with
  | nil =>
    refine ⟨fun _ => ⟨w, rfl, by simp, rfl, rfl, by simp, by simp⟩, fun h => absurd ⟨by simp, by simp⟩ h⟩
  | cons t ks ih =>
    by_cases ht : t ∈ w.deadSubs
    · refine ⟨fun h => absurd ht (h.2 t (by simp)), fun _ => ?_⟩
      simp only [List.map_cons, seqAll, kill_dead n t w ht]
    · obtain ⟨w1, h1, k1⟩ := kill_one (env := env) n p t w hin hP ht
      have hin1 : (w1.pubs p).insideNotify = true := by rw [k1.pub]; exact hin
      obtain ⟨i1, i2⟩ := ih w1 hin1 (k1.deadP.trans hP)
      have hiff : (ks.Nodup ∧ ∀ u ∈ ks, u ∉ w1.deadSubs) ↔ ((t :: ks).Nodup ∧ ∀ u ∈ t :: ks, u ∉ w.deadSubs) := by
        simp only [k1.dead, List.nodup_cons, List.mem_cons, List.not_mem_nil, or_false]
        constructor
        · rintro ⟨a, b⟩
          refine ⟨⟨fun hm => b t hm (.inl rfl), a⟩, ?_⟩
          rintro u (rfl | hu)
          · exact ht
          · exact fun hd => b u hu (.inr hd)
        · rintro ⟨⟨a, b⟩, c⟩
          refine ⟨b, fun u hu => ?_⟩
          rintro (rfl | hd)
          · exact a hu
          · exact c u (.inr hu) hd
      rw [← hiff]
      simp only [List.map_cons, seqAll, h1]
      refine ⟨fun h => ?_, i2⟩
      obtain ⟨w2, h2, k2⟩ := i1 h
      refine ⟨w2, h2, fun u => ?_, k2.deadP.trans k1.deadP, k2.log.trans k1.log, ?_, fun u => ?_⟩
      · rw [k2.dead, k1.dead]; simp only [List.mem_cons, List.not_mem_nil, or_false]
        constructor
        · rintro (h | h | h)
          exacts [.inl (.inr h), .inl (.inl h), .inr h]
        · rintro ((h | h) | h)
          exacts [.inr (.inl h), .inl h, .inr (.inr h)]
      · rw [k2.pub, k1.pub]
        have htk : t ∉ ks := by have := (hiff.1 h).1; exact (List.nodup_cons.1 this).1
        have hf : ks.filter (fun u => w1.ptr u = some p) = ks.filter (fun u => w.ptr u = some p) := by
          refine List.filter_congr (fun u hu => ?_)
          have hut : u ≠ t := fun h => htk (h ▸ hu)
          rw [k1.ptr]; simp [hut]
        rw [hf]
        simp only [List.append_assoc, List.filter_cons, List.filter_nil]
        split <;> simp
      · rw [k2.ptr, k1.ptr]
        by_cases h1 : u ∈ ks <;> by_cases h2 : u = t <;> simp [h1, h2]

/-- the condition under which the loop is defined -/
def KillOk (kills : SubId → List SubId) (D : SubId → Prop) (l : List SubId) : Prop :=
  (∀ s ∈ l, ¬ D s) ∧ (∀ t ∈ l.flatMap kills, ¬ D t) ∧ (l.flatMap kills).Nodup ∧ l.Pairwise (fun s u => u ∉ kills s)

theorem killOk_cons (kills : SubId → List SubId) (D : SubId → Prop) (s : SubId) (l : List SubId) :
    KillOk kills D (s :: l) ↔ ¬ D s ∧ (kills s).Nodup ∧ (∀ t ∈ kills s, ¬ D t) ∧ KillOk kills (fun t => t ∈ kills s ∨ D t) l := by
  unfold KillOk
  simp only [List.mem_cons, List.flatMap_cons, List.mem_append, List.nodup_append, List.pairwise_cons]
  constructor
  · rintro ⟨h1, h2, ⟨h3, h4, h5⟩, h6, h7⟩
    refine ⟨h1 s (.inl rfl), h3, fun t ht => h2 t (.inl ht), fun u hu => ?_, fun u hu => ?_, h4, h7⟩
    · rintro (h | h)
      · exact h6 u hu h
      · exact h1 u (.inr hu) h
    · rintro (h | h)
      · exact h5 u h u hu rfl
      · exact h2 u (.inr hu) h
  · rintro ⟨h1, h2, h3, h4, h5, h6, h7⟩
    refine ⟨?_, ?_, ⟨h2, h6, ?_⟩, ?_, h7⟩
    · rintro u (rfl | hu)
      · exact h1
      · exact fun h => h4 u hu (.inr h)
    · rintro u (hu | hu)
      · exact h3 u hu
      · exact fun h => h5 u hu (.inr h)
    · rintro u hu v hv rfl
      exact h5 u hv (.inl hu)
    · exact fun u hu h => h4 u hu (.inl h)

theorem kill_loop (n : Nat) (p : PubId) (e : Event) (kills : SubId → List SubId)
    (hk : ∀ s g, env.handler s e g = (kills s).map Act.destroySub) (l : List SubId) (w : PW)
    (hin : (w.pubs p).insideNotify = true) (hP : w.deadPubs = []) (D : SubId → Prop) (hD : ∀ t, t ∈ w.deadSubs ↔ D t) :
    (KillOk kills D l → ∃ w', notifyLoop (deliver env (act env (n + 1))) p e (w.pubs p).changes l w = .ok () w' ∧
      (∀ t, t ∈ w'.deadSubs ↔ t ∈ l.flatMap kills ∨ t ∈ w.deadSubs) ∧ w'.log = w.log ++ l.map (fun s => (s, e)) ∧ w'.deadPubs = [] ∧
      w'.pubs p = { w.pubs p with toBeUnsubscribed := (w.pubs p).toBeUnsubscribed ++ (l.flatMap kills).filter (fun t => w.ptr t = some p) }) ∧
    (¬ KillOk kills D l → ∃ r, notifyLoop (deliver env (act env (n + 1))) p e (w.pubs p).changes l w = .ub r) := by
  induction l generalizing w D with
  | nil =>
    refine ⟨fun _ => ⟨w, rfl, by simp, by simp, hP, by simp⟩, fun h => absurd ⟨by simp, by simp, by simp, by simp⟩ h⟩
  | cons s l ih =>
    rw [killOk_cons]
    unfold notifyLoop
    by_cases hs : s ∈ w.deadSubs
    · refine ⟨fun h => absurd ((hD s).1 hs) h.1, fun _ => ⟨"notifyGraphEvent: destroyed subscriber", by simp only [deliver, if_pos hs]⟩⟩
    · have hdel : deliver env (act env (n + 1)) s e w =
          seqAll (act env (n + 1)) ((kills s).map Act.destroySub) { w with log := w.log ++ [(s, e)] } := by
        unfold deliver; rw [if_neg hs]; simp only [hk]
      obtain ⟨k1, k2⟩ := kill_all (env := env) n p (kills s) { w with log := w.log ++ [(s, e)] } hin hP
      by_cases hg : (kills s).Nodup ∧ ∀ t ∈ kills s, t ∉ w.deadSubs
      · obtain ⟨w1, h1, hk1⟩ := k1 hg
        have hp1 := hk1.pub
        have hc : (w1.pubs p).changes = (w.pubs p).changes := by rw [hp1]
        obtain ⟨i1, i2⟩ := ih w1 (by rw [hp1]; exact hin) (hk1.deadP.trans hP) (fun t => t ∈ kills s ∨ D t)
          (fun t => by rw [hk1.dead]; simp [hD])
        rw [hdel, h1]
        simp only [hc, if_true]
        rw [← hc]
        have hg' : ∀ t ∈ kills s, ¬ D t := fun t ht h => hg.2 t ht ((hD t).2 h)
        refine ⟨fun h => ?_, fun h => i2 (fun hl => h ⟨fun hd => hs ((hD s).2 hd), hg.1, hg', hl⟩)⟩
        obtain ⟨w2, j1, j2, j3, j4, j5⟩ := i1 h.2.2.2
        refine ⟨w2, j1, fun t => ?_, ?_, j4, ?_⟩
        · rw [j2, hk1.dead]; simp only [List.flatMap_cons, List.mem_append]
          constructor
          · rintro (a | a | a)
            exacts [.inl (.inr a), .inl (.inl a), .inr a]
          · rintro ((a | a) | a)
            exacts [.inr (.inl a), .inl a, .inr (.inr a)]
        · rw [j3, hk1.log]; simp
        · rw [j5, hp1]
          have hf : (l.flatMap kills).filter (fun u => w1.ptr u = some p) = (l.flatMap kills).filter (fun u => w.ptr u = some p) := by
            refine List.filter_congr (fun u hu => ?_)
            have hut : u ∉ kills s := fun hm => h.2.2.2.2.1 u hu (.inl hm)
            rw [hk1.ptr, if_neg hut]
          rw [hf]
          simp [List.flatMap_cons, List.filter_append]
      · rw [hdel, k2 hg]
        exact ⟨fun h => absurd ⟨h.2.1, fun t ht hd => h.2.2.1 t ht ((hD t).1 hd)⟩ hg, fun _ => ⟨_, rfl⟩⟩

theorem foldl_erase_nodup (ks l : List SubId) (hl : l.Nodup) : ks.foldl List.erase l = l.filter (fun t => t ∉ ks) := by
  induction ks generalizing l with
  | nil => simp
  | cons a ks ih =>
    rw [List.foldl_cons, ih _ (hl.erase a), hl.erase_eq_filter]
    rw [List.filter_filter]
    refine List.filter_congr (fun t _ => ?_)
    by_cases h1 : t ∈ ks <;> by_cases h2 : t = a <;> simp [h1, h2]

end Verif
