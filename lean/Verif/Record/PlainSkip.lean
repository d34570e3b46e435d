import Verif.Record.WriteProps

/-!
# C42: the plaintext reader and undecryptable early data
-/

namespace Fizz.Record

theorem plainRead_inv (p : PlainRd) (buf : Bytes) : ∀ (m : TLSMessage) (p' : PlainRd)
    (rest : Bytes), plainRead p buf = .done m p' rest → p'.skipEncrypted = false ∧ (m.type = 22 ∨ m.type = 21) := by
  refine run_ind plainBody_mono.consumes (P := fun st buf => ∀ (m : TLSMessage) (p' : PlainRd)
    (rest : Bytes), run plainBody st buf = .done m p' rest → p'.skipEncrypted = false ∧ (m.type = 22 ∨ m.type = 21)) ?_ p buf
  intro st buf ih m p' rest h
  rw [run_eq plainBody_mono.consumes] at h
  cases hb : plainBody st buf with
  | again st' r => rw [hb] at h; exact ih _ _ hb m p' rest h
  | needMore _ _ _ => rw [hb] at h; cases h
  | fail _ => rw [hb] at h; cases h
  | done a s r =>
    rw [hb] at h
    cases h
    rcases short_or_header buf with hsh | ⟨t, v1, v2, l1, l2, body, rfl⟩
    · rw [plainBody, recordBody_short _ _ _ hsh] at hb; cases hb
    · simp only [plainBody, recordBody] at hb
      cases hh : plainHeader st ⟨t, v1, v2, l1, l2⟩ (List.take 10 (t :: v1 :: v2 :: l1 :: l2 :: body)) with
      | error f => rw [hh] at hb; cases hb
      | ok st1 =>
        rw [hh] at hb
        simp only at hb
        by_cases hl : body.length < Header.length ⟨t, v1, v2, l1, l2⟩
        · rw [if_pos hl] at hb; cases hb
        rw [if_neg hl] at hb
        unfold plainRecord at hb
        by_cases h23 : t = ContentType.application_data
        · rw [if_pos h23] at hb; cases hb
        rw [if_neg h23] at hb
        by_cases h20 : t = ContentType.change_cipher_spec
        · rw [if_pos h20] at hb
          by_cases h1 : body.take (Header.length ⟨t, v1, v2, l1, l2⟩) = [1]
          · rw [if_pos h1] at hb; cases hb
          · rw [if_neg h1] at hb; cases hb
        rw [if_neg h20] at hb
        cases hb
        unfold plainHeader at hh
        rw [if_neg (fun c => h23 c.2)] at hh
        simp only [if_pos h20] at hh
        split at hh
        · cases hh
        rename_i htt
        split at hh
        · cases hh
        split at hh
        · cases hh
        · cases hh
          refine ⟨rfl, ?_⟩
          by_cases e1 : t = ContentType.handshake
          · exact Or.inl e1
          · by_cases e2 : t = ContentType.alert
            · exact Or.inr e2
            · exact absurd ⟨e1, e2, h20⟩ htt

/-- C42: a plaintext reader delivers only handshake and alert records. -/
theorem C42_only_handshake_and_alerts (p : PlainRd) (buf : Bytes) (m : TLSMessage) (p' : PlainRd)
    (rest : Bytes) (h : plainRead p buf = .done m p' rest) :
    m.type = 22 ∨ m.type = 21 := (plainRead_inv p buf m p' rest h).2

/-- C42: skip mode is over after the first record delivered. -/
theorem C42_skip_ends (p : PlainRd) (buf : Bytes) (m : TLSMessage) (p' : PlainRd)
    (rest : Bytes) (h : plainRead p buf = .done m p' rest) : p'.skipEncrypted = false :=
  (plainRead_inv p buf m p' rest h).1

/-- C42: outside skip mode an application data header is fatal at once. -/
theorem C42_appdata_fatal (p : PlainRd) (hs : p.skipEncrypted = false) (hd : Header)
    (ht : hd.t = 23) (rest : Bytes) : ∃ f, plainRead p (hd.bytes ++ rest) = .fail f := by
  obtain ⟨t, v1, v2, l1, l2⟩ := hd
  simp only at ht
  subst ht
  obtain ⟨s, v⟩ := p
  simp only at hs
  subst hs
  exact ⟨_, rfl⟩

/-- C42: in skip mode a complete application data record is dropped unseen, whatever its contents
and length, and skip mode goes on. -/
theorem C42_skips (p : PlainRd) (hs : p.skipEncrypted = true) (hd : Header) (ht : hd.t = 23)
    (ct rest : Bytes) (hl : ct.length = hd.length) :
    plainRead p (hd.bytes ++ ct ++ rest) = plainRead p rest := by
  have hh : ∀ x, plainHeader p hd x = .ok p := by
    intro x
    unfold plainHeader
    rw [if_pos ⟨hs, ht⟩]
  have hb := plainBody_complete p p hd ct rest hl hh
  have hr : plainRecord p hd ct = .skip p := by
    unfold plainRecord
    rw [if_pos (show hd.t = ContentType.application_data from ht)]
  rw [hr] at hb
  show run plainBody _ _ = run plainBody _ _
  rw [run_eq plainBody_mono.consumes, hb]

/-- C42: outside skip mode nothing but change_cipher_spec is passed over: if a complete record of
another type comes first and reading succeeds, that record is what is delivered, and the version
reported is the one in its header. -/
theorem C42_nothing_hidden (p : PlainRd) (hs : p.skipEncrypted = false) (buf : Bytes) (m : TLSMessage)
    (p' : PlainRd) (rest : Bytes) (h : plainRead p buf = .done m p' rest) (hd : Header) (ct tail : Bytes)
    (hb : buf = hd.bytes ++ ct ++ tail) (hl : ct.length = hd.length) (hne : hd.t ≠ 20) :
    m = ⟨hd.t, ct⟩ ∧ rest = tail ∧ p'.receivedVersion = some (UInt16.ofNat (be16 hd.v1 hd.v2)) := by
  subst hb
  change run plainBody _ _ = _ at h
  rw [run_eq plainBody_mono.consumes] at h
  cases hh : plainHeader p hd ((hd.bytes ++ ct ++ tail).take 10) with
  | error f =>
    obtain ⟨t, v1, v2, l1, l2⟩ := hd
    simp only [plainBody, Header.bytes, List.cons_append, List.nil_append, recordBody] at h hh
    rw [hh] at h; cases h
  | ok st1 =>
    have hh' : ∀ x, plainHeader p hd x = .ok st1 := by
      intro x
      unfold plainHeader at hh ⊢
      rw [if_neg (by simp [hs])] at hh ⊢
      simp only at hh ⊢
      split at hh
      · cases hh
      · rename_i c; rw [if_neg c]; exact hh
    rw [plainBody_complete p st1 hd ct tail hl hh'] at h
    have h23 : ¬ hd.t = ContentType.application_data := by
      intro c
      unfold plainHeader at hh
      rw [if_neg (by simp [hs]), c] at hh
      cases hh
    unfold plainRecord at h
    rw [if_neg h23, if_neg (show ¬ hd.t = ContentType.change_cipher_spec from hne)] at h
    simp only [Iter.done.injEq] at h
    obtain ⟨rfl, rfl, rfl⟩ := h
    refine ⟨rfl, rfl, ?_⟩
    unfold plainHeader at hh
    rw [if_neg (by simp [hs])] at hh
    simp only at hh
    split at hh
    · cases hh
    split at hh
    · cases hh
    split at hh
    · cases hh
    · cases hh; rfl

set_option maxRecDepth 20000 in
-- two skipped early records, a change_cipher_spec, then the second ClientHello
example : plainRead ⟨true, none⟩
    ([23, 3, 3, 0, 2, 8, 8] ++ [23, 3, 3, 0, 0] ++ [20, 3, 3, 0, 1, 1] ++ [22, 3, 3, 0, 1, 9]) =
    .done ⟨22, [9]⟩ ⟨false, some 0x0303⟩ [] := by rfl

end Fizz.Record
