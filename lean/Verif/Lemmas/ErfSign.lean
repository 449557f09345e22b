import Verif.Lemmas.Erf

/-!
# Signs of the derivative of the error of `nx_erf`

The derivative of the error is a polynomial in `t` times the Gaussian. Between its zeros, which are known to eight digits, the polynomial is a
combination of products of `t - lo` and `hi - t` with positive coefficients.
-/

namespace Nx

/-- The constant `p` of `nx_erf`. -/
noncomputable def erfP : ℝ := 0.3275911

/-- `p² t² g'(t) + 2 (1 - t) g(t) / t` for the polynomial `g` of `nx_erf`. -/
noncomputable def erfQ (t : ℝ) : ℝ :=
  0.3275911 ^ 2 * t ^ 2 *
      (5 * 1.061405429 * t ^ 4 - 4 * 1.453152027 * t ^ 3 + 3 * 1.421413741 * t ^ 2 - 2 * 0.284496736 * t + 0.254829592) +
    2 * (1 - t) * (1.061405429 * t ^ 4 - 1.453152027 * t ^ 3 + 1.421413741 * t ^ 2 - 0.284496736 * t + 0.254829592)

theorem erfQ_0 {t : ℝ} (h1 : (49271391 / 50000000) ≤ t) (h2 : t ≤ 1) : erfP * (1.1283791670956 - 1 / 10 ^ 9) ≤ erfQ t := by
  have e : erfQ t - erfP * (1.1283791670956 - 1 / 10 ^ 9) =
      (102229816742659303637008353180624897726911060107666962773669 / 2992245238195365212262376255050796820000000000000000000000) *
          ((t - (49271391 / 50000000)) ^ 0 * (1 - t) ^ 6)
        + (22369634845246693303949858592757971455021793258820539851 / 149612261909768260613118812752539841000000000000000) *
          ((t - (49271391 / 50000000)) ^ 1 * (1 - t) ^ 5)
        + (2477206747884530906609646127406577727161642923049 / 2992245238195365212262376255050796820000000) *
          ((t - (49271391 / 50000000)) ^ 2 * (1 - t) ^ 4)
        + (274044894193740698073916300388842604916050 / 149612261909768260613118812752539841) *
          ((t - (49271391 / 50000000)) ^ 3 * (1 - t) ^ 3)
        + (302768219336666444237357479958888062500000 / 149612261909768260613118812752539841) *
          ((t - (49271391 / 50000000)) ^ 4 * (1 - t) ^ 2)
        + (167031973916205742520702781250000000000000 / 149612261909768260613118812752539841) *
          ((t - (49271391 / 50000000)) ^ 5 * (1 - t) ^ 1)
        + (36812919941917184375000000000000000000000 / 149612261909768260613118812752539841) *
          ((t - (49271391 / 50000000)) ^ 6 * (1 - t) ^ 0) := by
    unfold erfQ erfP
    ring
  have g1 : 0 ≤ t - (49271391 / 50000000) := by linarith
  have g2 : 0 ≤ 1 - t := by linarith
  have : 0 ≤ erfQ t - erfP * (1.1283791670956 - 1 / 10 ^ 9) := by
    rw [e]
    positivity
  linarith

theorem erfQ_1 {t : ℝ} (h1 : (93211443 / 100000000) ≤ t) (h2 : t ≤ (49271391 / 50000000)) :
    erfQ t ≤ erfP * (1.1283791670955 + 1 / 10 ^ 9) := by
  have e : erfP * (1.1283791670955 + 1 / 10 ^ 9) - erfQ t =
      (242640444911942365286366006556643483325358803730873624316217 / 17009205294310946172874185437684008048860000000000000000000000) *
          ((t - (93211443 / 100000000)) ^ 0 * ((49271391 / 50000000) - t) ^ 6)
        + (100530663098893811535671670852599831683695925234981563405012029 / 1417433774525912181072848786473667337405000000000000000000000) *
          ((t - (93211443 / 100000000)) ^ 1 * ((49271391 / 50000000) - t) ^ 5)
        + (4033989636828316281180370858489626440818393374237411685703299 / 10499509440932682822761842862767906203000000000000000000000) *
          ((t - (93211443 / 100000000)) ^ 2 * ((49271391 / 50000000) - t) ^ 4)
        + (82301295397360521329764394539492998940756757718395962157723701 / 106307533089443413580463658985525050305375000000000000000000) *
          ((t - (93211443 / 100000000)) ^ 3 * ((49271391 / 50000000) - t) ^ 3)
        + (48772270736910926917848464087937840044515002873267561628512937 / 70871688726295609053642439323683366870250000000000000000000) *
          ((t - (93211443 / 100000000)) ^ 4 * ((49271391 / 50000000) - t) ^ 2)
        + (6729176752665520673030667179439384080727257830833925694070223 / 29529870302623170439017683051534736195937500000000000000000) *
          ((t - (93211443 / 100000000)) ^ 5 * ((49271391 / 50000000) - t) ^ 1)
        + (3796458649461692457888579511828707491595886662679001378753 / 265768832723608533951159147463812625763437500000000000000000) *
          ((t - (93211443 / 100000000)) ^ 6 * ((49271391 / 50000000) - t) ^ 0) := by
    unfold erfQ erfP
    ring
  have g1 : 0 ≤ t - (93211443 / 100000000) := by linarith
  have g2 : 0 ≤ (49271391 / 50000000) - t := by linarith
  have : 0 ≤ erfP * (1.1283791670955 + 1 / 10 ^ 9) - erfQ t := by
    rw [e]
    positivity
  linarith

theorem erfQ_2 {t : ℝ} (h1 : (42871019 / 50000000) ≤ t) (h2 : t ≤ (93211443 / 100000000)) :
    erfP * (1.1283791670956 - 1 / 10 ^ 9) ≤ erfQ t := by
  have e : erfQ t - erfP * (1.1283791670956 - 1 / 10 ^ 9) =
      (102388546371250966591569854892646013798239864215386328338029 / 54270780805708336479192482299938570708007812500000000000000000) *
          ((t - (42871019 / 50000000)) ^ 0 * ((93211443 / 100000000) - t) ^ 6)
        + (495022632551281294327911767461332712421313807033856311287496239 / 54270780805708336479192482299938570708007812500000000000000000) *
          ((t - (42871019 / 50000000)) ^ 1 * ((93211443 / 100000000) - t) ^ 5)
        + (1984964916790025492240229733173283241830219651460503976001645783 / 43416624644566669183353985839950856566406250000000000000000000) *
          ((t - (42871019 / 50000000)) ^ 2 * ((93211443 / 100000000) - t) ^ 4)
        + (1754152494711995841387496507564447862592904295967966879417469717 / 21708312322283334591676992919975428283203125000000000000000000) *
          ((t - (42871019 / 50000000)) ^ 3 * ((93211443 / 100000000) - t) ^ 3)
        + (10056622286980692655793072164528426420116026947631772577546483047 / 173666498578266676733415943359803426265625000000000000000000000) *
          ((t - (42871019 / 50000000)) ^ 4 * ((93211443 / 100000000) - t) ^ 2)
        + (11404683859159348505343609408448115109811736262362613918847169359 / 868332492891333383667079716799017131328125000000000000000000000) *
          ((t - (42871019 / 50000000)) ^ 5 * ((93211443 / 100000000) - t) ^ 1)
        + (6551696805177556137268117822970625950215312299266412143462141 / 3473329971565333534668318867196068525312500000000000000000000000) *
          ((t - (42871019 / 50000000)) ^ 6 * ((93211443 / 100000000) - t) ^ 0) := by
    unfold erfQ erfP
    ring
  have g1 : 0 ≤ t - (42871019 / 50000000) := by linarith
  have g2 : 0 ≤ (93211443 / 100000000) - t := by linarith
  have : 0 ≤ erfQ t - erfP * (1.1283791670956 - 1 / 10 ^ 9) := by
    rw [e]
    positivity
  linarith

theorem erfQ_3 {t : ℝ} (h1 : (38656707 / 50000000) ≤ t) (h2 : t ≤ (42871019 / 50000000)) :
    erfQ t ≤ erfP * (1.1283791670955 + 1 / 10 ^ 9) := by
  have e : erfP * (1.1283791670955 + 1 / 10 ^ 9) - erfQ t =
      (102389610170704259163297818592599062615676322904064008354659 / 112044386847920294550436920108624175431680000000000000000000000) *
          ((t - (38656707 / 50000000)) ^ 0 * ((42871019 / 50000000) - t) ^ 6)
        + (344605207573275978305427066897547646918013594164106332829064609 / 56022193423960147275218460054312087715840000000000000000000000) *
          ((t - (38656707 / 50000000)) ^ 1 * ((42871019 / 50000000) - t) ^ 5)
        + (619003507397834929357890736330273689575227967141776562921707353 / 22408877369584058910087384021724835086336000000000000000000000) *
          ((t - (38656707 / 50000000)) ^ 2 * ((42871019 / 50000000) - t) ^ 4)
        + (234631588821625425363060392899334229943567624335831514115792667 / 5602219342396014727521846005431208771584000000000000000000000) *
          ((t - (38656707 / 50000000)) ^ 3 * ((42871019 / 50000000) - t) ^ 3)
        + (556264319995650975285433817090130031335093794295708404790427017 / 22408877369584058910087384021724835086336000000000000000000000) *
          ((t - (38656707 / 50000000)) ^ 4 * ((42871019 / 50000000) - t) ^ 2)
        + (279257078759513867698842554450813251029686485097234416483276289 / 56022193423960147275218460054312087715840000000000000000000000) *
          ((t - (38656707 / 50000000)) ^ 5 * ((42871019 / 50000000) - t) ^ 1)
        + (102345653906874033408430145107353986201760135784613671661971 / 112044386847920294550436920108624175431680000000000000000000000) *
          ((t - (38656707 / 50000000)) ^ 6 * ((42871019 / 50000000) - t) ^ 0) := by
    unfold erfQ erfP
    ring
  have g1 : 0 ≤ t - (38656707 / 50000000) := by linarith
  have g2 : 0 ≤ (42871019 / 50000000) - t := by linarith
  have : 0 ≤ erfP * (1.1283791670955 + 1 / 10 ^ 9) - erfQ t := by
    rw [e]
    positivity
  linarith

theorem erfQ_4 {t : ℝ} (h1 : (68551721 / 100000000) ≤ t) (h2 : t ≤ (38656707 / 50000000)) :
    erfP * (1.1283791670956 - 1 / 10 ^ 9) ≤ erfQ t := by
  have e : erfQ t - erfP * (1.1283791670956 - 1 / 10 ^ 9) =
      (6554252256780838330696226811324713459511601817502035498459989 / 9048116570363350000192452954255872322324980000000000000000000000) *
          ((t - (68551721 / 100000000)) ^ 0 * ((38656707 / 50000000) - t) ^ 6)
        + (26844019362115720511779145542756307406524983261742121426528025589 / 2262029142590837500048113238563968080581245000000000000000000000) *
          ((t - (68551721 / 100000000)) ^ 1 * ((38656707 / 50000000) - t) ^ 5)
        + (20132272663048063652582300994687625176512791623247236307237277063 / 452405828518167500009622647712793616116249000000000000000000000) *
          ((t - (68551721 / 100000000)) ^ 2 * ((38656707 / 50000000) - t) ^ 4)
        + (3110034297369278002322013360781504102623869247947071472368365807 / 56550728564770937501202830964099202014531125000000000000000000) *
          ((t - (68551721 / 100000000)) ^ 3 * ((38656707 / 50000000) - t) ^ 3)
        + (3166588896286116866790823015168777097862197844174141733130598607 / 113101457129541875002405661928198404029062250000000000000000000) *
          ((t - (68551721 / 100000000)) ^ 4 * ((38656707 / 50000000) - t) ^ 2)
        + (716420993075869007409041015768583132892683860713716887816650469 / 141376821411927343753007077410248005036327812500000000000000000) *
          ((t - (68551721 / 100000000)) ^ 5 * ((38656707 / 50000000) - t) ^ 1)
        + (102344590107420740836702181407400937384323677095935991645341 / 141376821411927343753007077410248005036327812500000000000000000) *
          ((t - (68551721 / 100000000)) ^ 6 * ((38656707 / 50000000) - t) ^ 0) := by
    unfold erfQ erfP
    ring
  have g1 : 0 ≤ t - (68551721 / 100000000) := by linarith
  have g2 : 0 ≤ (38656707 / 50000000) - t := by linarith
  have : 0 ≤ erfQ t - erfP * (1.1283791670956 - 1 / 10 ^ 9) := by
    rw [e]
    positivity
  linarith

theorem erfQ_5 {t : ℝ} (h1 : (29448241 / 50000000) ≤ t) (h2 : t ≤ (68551721 / 100000000)) :
    erfQ t ≤ erfP * (1.1283791670955 + 1 / 10 ^ 9) := by
  have e : erfP * (1.1283791670955 + 1 / 10 ^ 9) - erfQ t =
      (102376141926735003500384339693706316480690168335890483223931 / 253179298826277945833420633198247889203925312500000000000000000) *
          ((t - (29448241 / 50000000)) ^ 0 * ((68551721 / 100000000) - t) ^ 6)
        + (1240077457730177579294382644165071097005975647569600850029053537 / 28131033202919771759268959244249765467102812500000000000000000) *
          ((t - (29448241 / 50000000)) ^ 1 * ((68551721 / 100000000) - t) ^ 5)
        + (7711809075520009898365860666992431641892495304308433103955447691 / 67514479687007452222245502186199437121046750000000000000000000) *
          ((t - (29448241 / 50000000)) ^ 2 * ((68551721 / 100000000) - t) ^ 4)
        + (11136714104644588385627707535367563430641668846304622915968597171 / 101271719530511178333368253279299155681570125000000000000000000) *
          ((t - (29448241 / 50000000)) ^ 3 * ((68551721 / 100000000) - t) ^ 3)
        + (4191143599226853022353097001005856379113507676364608844140827017 / 90019306249343269629660669581599249494729000000000000000000000) *
          ((t - (29448241 / 50000000)) ^ 4 * ((68551721 / 100000000) - t) ^ 2)
        + (9860216337290629909990790841767519536498783510496343634489131331 / 1350289593740149044444910043723988742420935000000000000000000000) *
          ((t - (29448241 / 50000000)) ^ 5 * ((68551721 / 100000000) - t) ^ 1)
        + (6548736561019161669303773188675286540488398182497964501540011 / 16203475124881788533338920524687864909051220000000000000000000000) *
          ((t - (29448241 / 50000000)) ^ 6 * ((68551721 / 100000000) - t) ^ 0) := by
    unfold erfQ erfP
    ring
  have g1 : 0 ≤ t - (29448241 / 50000000) := by linarith
  have g2 : 0 ≤ (68551721 / 100000000) - t := by linarith
  have : 0 ≤ erfP * (1.1283791670955 + 1 / 10 ^ 9) - erfQ t := by
    rw [e]
    positivity
  linarith

theorem erfQ_6 {t : ℝ} (h1 : 0 ≤ t) (h2 : t ≤ (29448241 / 50000000)) : erfP * (1.1283791670956 - 1 / 10 ^ 9) ≤ erfQ t := by
  have e : erfQ t - erfP * (1.1283791670956 - 1 / 10 ^ 9) =
      (2187690808775932669375000000000000000000000000 / 652162994207318485636426735226245133964433441) *
          ((t - 0) ^ 0 * ((29448241 / 50000000) - t) ^ 6)
        + (3199762549787441016250000000000000000000000000 / 652162994207318485636426735226245133964433441) *
          ((t - 0) ^ 1 * ((29448241 / 50000000) - t) ^ 5)
        + (1823718727562254782924194999378113049500000000 / 652162994207318485636426735226245133964433441) *
          ((t - 0) ^ 2 * ((29448241 / 50000000) - t) ^ 4)
        + (503851177845937666622758670205182171514652560 / 652162994207318485636426735226245133964433441) *
          ((t - 0) ^ 3 * ((29448241 / 50000000) - t) ^ 3)
        + (2681338292045962553845969680968378899889601187899863 / 26086519768292739425457069409049805358577337640000000) *
          ((t - 0) ^ 4 * ((29448241 / 50000000) - t) ^ 2)
        + (1701914238455932911756799900822599836618788917938356657733 / 326081497103659242818213367613122566982216720500000000000000) *
          ((t - 0) ^ 5 * ((29448241 / 50000000) - t) ^ 1)
        + (102358058351389996499615660306293683519309831664109516776069 / 13043259884146369712728534704524902679288668820000000000000000000000) *
          ((t - 0) ^ 6 * ((29448241 / 50000000) - t) ^ 0) := by
    unfold erfQ erfP
    ring
  have g1 : 0 ≤ t - 0 := by linarith
  have g2 : 0 ≤ (29448241 / 50000000) - t := by linarith
  have : 0 ≤ erfQ t - erfP * (1.1283791670956 - 1 / 10 ^ 9) := by
    rw [e]
    positivity
  linarith

end Nx
