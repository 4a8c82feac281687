import Verif.Proofs.Py
/-!
The reference parser of literals does not care about blanks behind the literal.
-/
namespace Npyz.Py
set_option autoImplicit false

theorem skipWs_append {r : Text} (h : skipWs r ≠ []) (b : Text) : skipWs (r ++ b) = skipWs r ++ b := by
  induction r with
  | nil => exact absurd rfl h
  | cons c r ih =>
    by_cases hc : c = ' '
    · subst hc
      rw [skipWs_blank] at h ⊢
      rw [List.cons_append, skipWs_blank]
      exact ih h
    · rw [List.cons_append, skipWs_cons_ne hc, skipWs_cons_ne hc]
      rfl

theorem strBody_append (q : Char) (b : Text) : ∀ (k : Nat) (r : Text), r.length ≤ k → ∀ s r', strBody q r = some (s, r') →
    strBody q (r ++ b) = some (s, r' ++ b) := by
  intro k
  induction k with
  | zero =>
    intro r hr s r' h
    cases r with
    | nil => cases h
    | cons c r => simp at hr
  | succ k ih =>
    intro r hr s r' h
    cases r with
    | nil => cases h
    | cons c r =>
      rw [List.cons_append, strBody_cons] 
      rw [strBody_cons] at h
      by_cases h1 : c = q
      · rw [if_pos h1] at h ⊢
        cases h
        rfl
      · rw [if_neg h1] at h ⊢
        by_cases h2 : c = '\\'
        · rw [if_pos h2] at h ⊢
          cases r with
          | nil => cases h
          | cons e r =>
            simp only [List.cons_append] at h ⊢
            rcases he : escape e with _ | x
            · rw [he] at h; cases h
            · rw [he] at h
              rcases hs : strBody q r with _ | ⟨s1, r1⟩
              · rw [hs] at h; cases h
              · rw [hs] at h
                rw [ih r (by simp at hr; omega) s1 r1 hs]
                cases h
                rfl
        · rw [if_neg h2] at h ⊢
          by_cases h3 : c = '\n' ∨ c = '\r'
          · rw [if_pos h3] at h; cases h
          · rw [if_neg h3] at h ⊢
            rcases hs : strBody q r with _ | ⟨s1, r1⟩
            · rw [hs] at h; cases h
            · rw [hs] at h
              rw [ih r (by simp at hr; omega) s1 r1 hs]
              cases h
              rfl

theorem takeWhile_blanks (n : Nat) (s : Text) : (s ++ List.replicate n ' ').takeWhile Char.isDigit = s.takeWhile Char.isDigit ∧
    (s ++ List.replicate n ' ').dropWhile Char.isDigit = s.dropWhile Char.isDigit ++ List.replicate n ' ' := by
  induction s with
  | nil =>
    cases n with
    | zero => exact ⟨rfl, rfl⟩
    | succ n => 
      have : Char.isDigit ' ' = false := by decide
      simp [List.replicate_succ, this]
  | cons c s ih =>
    simp only [List.cons_append, List.takeWhile_cons, List.dropWhile_cons]
    cases c.isDigit with
    | true => simp [ih.1, ih.2]
    | false => simp

theorem parseNat_blanks (n : Nat) {s : Text} {k : Nat} {r : Text} (h : parseNat s = some (k, r)) :
    parseNat (s ++ List.replicate n ' ') = some (k, r ++ List.replicate n ' ') := by
  unfold parseNat at h ⊢
  rw [(takeWhile_blanks n s).1, (takeWhile_blanks n s).2]
  rcases hd : digitsVal (s.takeWhile Char.isDigit) with _ | m
  · rw [hd] at h; cases h
  · rw [hd] at h
    cases h
    rfl

theorem parseKeyword_append (b : Text) {s : Text} {v : PyVal} {r : Text} (h : parseKeyword s = some (v, r)) :
    parseKeyword (s ++ b) = some (v, r ++ b) := by
  unfold parseKeyword at h
  split at h <;> cases h <;> rfl

theorem parse_mono (n k : Nat) : ∀ fuel : Nat,
    (∀ s v r, parseVal fuel s = some (v, r) → parseVal (fuel + k) (s ++ List.replicate n ' ') = some (v, r ++ List.replicate n ' ')) ∧
    (∀ (c : Char) (s : Text) (v : List PyVal × Bool) (r : Text), parseItems fuel c s = some (v.1, v.2, r) → parseItems (fuel + k) c (s ++ List.replicate n ' ') = some (v.1, v.2, r ++ List.replicate n ' ')) ∧
    (∀ s v r, parseEntries fuel s = some (v, r) → parseEntries (fuel + k) (s ++ List.replicate n ' ') = some (v, r ++ List.replicate n ' ')) := by
  intro fuel
  induction fuel with
  | zero =>
    refine ⟨fun s v r h => ?_, fun c s v r h => ?_, fun s v r h => ?_⟩
    · simp [parseVal] at h
    · simp [parseItems] at h
    · simp [parseEntries] at h
  | succ fuel ih =>
    obtain ⟨ih1, ih2, ih3⟩ := ih
    have nn : ∀ {r : Text} {β : Type} {g : Text → Option β} {x : β}, g [] = none → g (skipWs r) = some x →
        skipWs (r ++ List.replicate n ' ') = skipWs r ++ List.replicate n ' ' := by
      intro r β g x h0 h
      refine skipWs_append (fun he => ?_) _
      rw [he, h0] at h
      cases h
    have pi0 : ∀ c, parseItems fuel c [] = none := by intro c; cases fuel <;> simp [parseItems]
    have pe0 : parseEntries fuel [] = none := by cases fuel <;> simp [parseEntries]
    have pv0 : parseVal fuel [] = none := by cases fuel <;> simp [parseVal]
    have e : fuel + 1 + k = (fuel + k) + 1 := by omega
    rw [e]
    refine ⟨fun s v r h => ?_, fun c s v r h => ?_, fun s v r h => ?_⟩
    · cases s with
      | nil => simp [parseVal] at h
      | cons c s =>
        rw [List.cons_append]
        rw [parseVal] at h ⊢
        by_cases h1 : c = '\'' ∨ c = '"'
        · rw [if_pos h1] at h ⊢
          rcases hs : strBody c s with _ | ⟨s1, r1⟩
          · rw [hs] at h; cases h
          · rw [hs] at h
            rw [strBody_append c _ _ s (Nat.le_refl _) s1 r1 hs]
            cases h
            rfl
        rw [if_neg h1] at h ⊢
        by_cases h2 : c = '('
        · rw [if_pos h2] at h ⊢
          rcases hs : parseItems fuel ')' (skipWs s) with _ | ⟨vs, b, r1⟩
          · rw [hs] at h; cases h
          · rw [nn (pi0 _) hs, ih2 _ _ (vs, b) _ hs]
            rw [hs] at h
            simp only [mkTuple] at h ⊢
            split at h
            · cases h
            · cases h
              rename_i hx
              rw [if_neg hx]
        rw [if_neg h2] at h ⊢
        by_cases h3 : c = '['
        · rw [if_pos h3] at h ⊢
          rcases hs : parseItems fuel ']' (skipWs s) with _ | ⟨vs, b, r1⟩
          · rw [hs] at h; cases h
          · rw [nn (pi0 _) hs, ih2 _ _ (vs, b) _ hs]
            rw [hs] at h
            cases h
            rfl
        rw [if_neg h3] at h ⊢
        by_cases h4 : c = '{'
        · rw [if_pos h4] at h ⊢
          rcases hs : parseEntries fuel (skipWs s) with _ | ⟨vs, r1⟩
          · rw [hs] at h; cases h
          · rw [nn pe0 hs, ih3 _ _ _ hs]
            rw [hs] at h
            cases h
            rfl
        rw [if_neg h4] at h ⊢
        by_cases h5 : c.isDigit = true
        · rw [if_pos h5] at h ⊢
          rcases hs : parseNat (c :: s) with _ | ⟨m, r1⟩
          · rw [hs] at h; cases h
          · rw [← List.cons_append, parseNat_blanks n hs]
            rw [hs] at h
            cases h
            rfl
        rw [if_neg h5] at h ⊢
        by_cases h6 : c = '-'
        · rw [if_pos h6] at h ⊢
          rcases hs : parseNat s with _ | ⟨m, r1⟩
          · rw [hs] at h; cases h
          · rw [parseNat_blanks n hs]
            rw [hs] at h
            cases h
            rfl
        rw [if_neg h6] at h ⊢
        exact parseKeyword_append _ h
    · obtain ⟨v1, v2⟩ := v
      cases s with
      | nil => simp [parseItems] at h
      | cons x s =>
        rw [List.cons_append]
        rw [parseItems] at h ⊢
        by_cases h1 : x = c
        · rw [if_pos h1] at h ⊢
          cases h
          rfl
        rw [if_neg h1] at h ⊢
        rcases hs : parseVal fuel (x :: s) with _ | ⟨w, r1⟩
        · rw [hs] at h; cases h
        · rw [← List.cons_append, ih1 _ _ _ hs]
          rw [hs] at h
          simp only at h ⊢
          rw [nn rfl h]
          generalize skipWs r1 = y at h ⊢
          cases y with
          | nil => cases h
          | cons z y =>
            rw [List.cons_append]
            unfold itemTail at h ⊢
            simp only at h ⊢
            by_cases h2 : z = c
            · rw [if_pos h2] at h ⊢
              cases h
              rfl
            rw [if_neg h2] at h ⊢
            by_cases h3 : z = ','
            · rw [if_pos h3] at h ⊢
              rcases hm : parseItems fuel c (skipWs y) with _ | ⟨vs, b, r2⟩
              · rw [hm] at h; cases h
              · rw [nn (pi0 _) hm, ih2 _ _ (vs, b) _ hm]
                rw [hm] at h
                cases h
                rfl
            · rw [if_neg h3] at h; cases h
    · cases s with
      | nil => simp [parseEntries] at h
      | cons x s =>
        rw [List.cons_append]
        rw [parseEntries] at h ⊢
        by_cases h1 : x = '}'
        · rw [if_pos h1] at h ⊢
          cases h
          rfl
        rw [if_neg h1] at h ⊢
        rcases hs : parseVal fuel (x :: s) with _ | ⟨w, r1⟩
        · rw [hs] at h; cases h
        rw [← List.cons_append, ih1 _ _ _ hs]
        rw [hs] at h
        simp only at h ⊢
        rcases hc : expectColon (skipWs r1) with _ | r2
        · rw [hc] at h; cases h
        rw [hc] at h
        simp only at h
        rcases hv : parseVal fuel r2 with _ | ⟨w2, r3⟩
        · rw [hv] at h; cases h
        rw [hv] at h
        simp only at h
        have hc' : expectColon (skipWs r1 ++ List.replicate n ' ') = some (r2 ++ List.replicate n ' ') := by
          generalize skipWs r1 = y at hc ⊢
          cases y with
          | nil => cases hc
          | cons z y =>
            rw [List.cons_append]
            unfold expectColon at hc ⊢
            simp only at hc ⊢
            by_cases hz : z = ':'
            · rw [if_pos hz] at hc ⊢
              cases hc
              rw [nn pv0 hv]
            · rw [if_neg hz] at hc; cases hc
        rw [nn rfl hc, hc']
        simp only
        rw [ih1 _ _ _ hv]
        simp only
        rw [nn rfl h]
        generalize skipWs r3 = y at h ⊢
        cases y with
        | nil => cases h
        | cons z y =>
          rw [List.cons_append]
          unfold entryTail at h ⊢
          simp only at h ⊢
          by_cases h2 : z = '}'
          · rw [if_pos h2] at h ⊢
            cases h
            rfl
          rw [if_neg h2] at h ⊢
          by_cases h3 : z = ','
          · rw [if_pos h3] at h ⊢
            rcases hm : parseEntries fuel (skipWs y) with _ | ⟨vs, r2⟩
            · rw [hm] at h; cases h
            · rw [nn pe0 hm, ih3 _ _ _ hm]
              rw [hm] at h
              cases h
              rfl
          · rw [if_neg h3] at h; cases h

theorem parse_blanks {s : Text} {v : PyVal} (h : parse s = some v) (m n : Nat) :
    parse (List.replicate m ' ' ++ s ++ List.replicate n ' ') = some v := by
  unfold parse at h ⊢
  rcases hp : parseVal (s.length + 1) (skipWs s) with _ | ⟨w, r⟩
  · rw [hp] at h; cases h
  rw [hp] at h
  have hne : skipWs s ≠ [] := by
    intro he
    rw [he] at hp
    simp [parseVal] at hp
  rw [List.append_assoc, skipWs_replicate, skipWs_append hne]
  have := (parse_mono n (m + n) (s.length + 1)).1 _ _ _ hp
  rw [show (List.replicate m ' ' ++ (s ++ List.replicate n ' ')).length + 1 = s.length + 1 + (m + n) by simp; omega, this]
  simp only [finish] at h ⊢
  split at h
  · rename_i hr
    cases h
    rw [if_pos]
    have : ∀ r : Text, skipWs r = [] → skipWs (r ++ List.replicate n ' ') = [] := by
      intro r
      induction r with
      | nil => intro _; exact skipWs_replicate_nil n
      | cons c r ih =>
        by_cases hc : c = ' '
        · subst hc
          rw [skipWs_blank, List.cons_append, skipWs_blank]
          exact ih
        · rw [skipWs_cons_ne hc]
          nofun
    exact this r hr
  · cases h

end Npyz.Py
