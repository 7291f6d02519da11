import Verif.Proof.NamedCurve
/-!
# Certificates for secp256r1

Generated by tools/gen_certs.py.
-/
namespace Ack.Certs

theorem secp256r1_0 : Nat.Prime 15577867 := prime_of_trial (f := 20000) (by decide +kernel)
theorem secp256r1_1 : Nat.Prime 1417651507 := ecpp (a := 0) (b := 275745510) (x := 605492542) (y := 249239278) secp256r1_0 (by decide +kernel)
theorem secp256r1_2 : Nat.Prime 4252890511 := ecpp (a := 0) (b := 735345770) (x := 1030735882) (y := 1332444852) secp256r1_1 (by decide +kernel)
theorem secp256r1_3 : Nat.Prime 15837769931143 := ecpp (a := 0) (b := 7031887244277) (x := 8303392270040) (y := 5982234987742) secp256r1_2 (by decide +kernel)
theorem secp256r1_4 : Nat.Prime 32039808769318033 := ecpp (a := 0) (b := 1085486489946930) (x := 1809136248082685) (y := 4033082929137340) secp256r1_3 (by decide +kernel)
theorem secp256r1_5 : Nat.Prime 78020650971006918848227 := ecpp (a := 0) (b := 14261589389767684822878) (x := 18813803249555968433237) (y := 35006136395563155056417) secp256r1_4 (by decide +kernel)
theorem secp256r1_6 : Nat.Prime 104052015163029310677557831682063919753763 := ecpp (a := 100451271268730281386732967255415980133077) (b := 80389017164628780206949277416176082760642) (x := 89192543238610847527671325742170120347278) (y := 94820101687487993327831887063741149781636) secp256r1_5 (by decide +kernel)
theorem secp256r1_7 : Nat.Prime 33858471025477153261763321139801356407217449634885131 := ecpp (a := 5919333971864822705442245817709683873672586915821058) (b := 15332303779015521088908790378397881670990567311985742) (x := 22806360973559620516200563784528891786320817273940481) (y := 32817372116480979171904328180197103337202842657062978) secp256r1_6 (by decide +kernel)
theorem secp256r1_8 : Nat.Prime 384090495313012826601443114979075001689755689061341924399 := ecpp (a := 17657232868806769114727145828097924951673674664175768949) (b := 78578217285954247880605138652272274071873075929512648089) (x := 131481026195332182336279384817151643166798441172544272360) (y := 186998353300759094692831795131344547451926512617263805119) secp256r1_7 (by decide +kernel)
theorem secp256r1_9 : Nat.Prime 13776060104605218399917286177792634621067287109569330399826573269 := ecpp (a := 0) (b := 10992828973931697736141251356153423618367028256242741430616933724) (x := 10354249755629106422182272165256087264452916111288318423888856701) (y := 11315999400420080464940246365346461461819845701046857463503456115) secp256r1_8 (by decide +kernel)
theorem secp256r1_10 : Nat.Prime 115792089210356248762697446949407573529996955224135760342422259061068512044369 := ecpp (a := 0) (b := 99018255580590126672830540812155937582413137490779829616202621879343454329224) (x := 4503145189459062561744735633171611359025626030595462437914217928123034339460) (y := 31405957251965040443651217434569264975492829196296178724260751072676007215890) secp256r1_9 (by decide +kernel)

/-- The facts about the constants of secp256r1 that are checked by computation. -/
theorem secp256r1 : NumCert Named.secp256r1Params 115792089210356248762697446949407573530086143415290314195533631308867097853951 115792089210356248762697446949407573530086143415290314195533631308867097853948 41058363725152142129326129780047268409114441015993725554835256314039467401291 48439561293906451759052585252797914202762949526041747995844080717082404635286 36134250956749795798585127919587881956611106672985015071877198253568414405109 115792089210356248762697446949407573529996955224135760342422259061068512044369 where
  hp := by decide +kernel
  ha := by decide +kernel
  hb := by decide +kernel
  hgx := by decide +kernel
  hgy := by decide +kernel
  hn := by decide +kernel
  np := secp256r1_10
  run := by decide +kernel
  root := ⟨107286402702237026811154678719514266289498743974321057492273529440068429825344, 6389611969556882025875921584714237703390037729321797349080302270353162149340, 76626890310466861426869089647039036757962535851890885406097439786770458211455, 74462945259064871768191128030512052509059297803194871526163573358218695456204, 34768139465301476436978405170953382516735956999154666452188405812258086013549, by decide +kernel⟩
  num := by decide +kernel

end Ack.Certs
