[
{
"N": "115792089210356248762697446949407573529996955224135760342422259061068512044369",
"a": "0",
"b": "99018255580590126672830540812155937582413137490779829616202621879343454329224",
"x": "4503145189459062561744735633171611359025626030595462437914217928123034339460",
"y": "31405957251965040443651217434569264975492829196296178724260751072676007215890",
"q": "13776060104605218399917286177792634621067287109569330399826573269"
},
{
"N": "13776060104605218399917286177792634621067287109569330399826573269",
"a": "0",
"b": "10992828973931697736141251356153423618367028256242741430616933724",
"x": "10354249755629106422182272165256087264452916111288318423888856701",
"y": "11315999400420080464940246365346461461819845701046857463503456115",
"q": "384090495313012826601443114979075001689755689061341924399"
},
{
"N": "384090495313012826601443114979075001689755689061341924399",
"a": "17657232868806769114727145828097924951673674664175768949",
"b": "78578217285954247880605138652272274071873075929512648089",
"x": "131481026195332182336279384817151643166798441172544272360",
"y": "186998353300759094692831795131344547451926512617263805119",
"q": "33858471025477153261763321139801356407217449634885131"
},
{
"N": "33858471025477153261763321139801356407217449634885131",
"a": "5919333971864822705442245817709683873672586915821058",
"b": "15332303779015521088908790378397881670990567311985742",
"x": "22806360973559620516200563784528891786320817273940481",
"y": "32817372116480979171904328180197103337202842657062978",
"q": "104052015163029310677557831682063919753763"
},
{
"N": "104052015163029310677557831682063919753763",
"a": "100451271268730281386732967255415980133077",
"b": "80389017164628780206949277416176082760642",
"x": "89192543238610847527671325742170120347278",
"y": "94820101687487993327831887063741149781636",
"q": "78020650971006918848227"
},
{
"N": "78020650971006918848227",
"a": "0",
"b": "14261589389767684822878",
"x": "18813803249555968433237",
"y": "35006136395563155056417",
"q": "32039808769318033"
},
{
"N": "32039808769318033",
"a": "0",
"b": "1085486489946930",
"x": "1809136248082685",
"y": "4033082929137340",
"q": "15837769931143"
},
{
"N": "15837769931143",
"a": "0",
"b": "7031887244277",
"x": "8303392270040",
"y": "5982234987742",
"q": "4252890511"
},
{
"N": "4252890511",
"a": "0",
"b": "735345770",
"x": "1030735882",
"y": "1332444852",
"q": "1417651507"
},
{
"N": "1417651507",
"a": "0",
"b": "275745510",
"x": "605492542",
"y": "249239278",
"q": "15577867"
}
]