[
{
"N": "21659270770119316173069236842332604979796116387017648600075645274821611501358515537962695117368903252229601718723941",
"a": "8980021127851185992703880399815388052132857350556772132851239146963693011680563689611694164494410334212298541603182",
"b": "21407018016117530854005160728705936001012240080274070169753867049317199852073072812707076910800594384789135359567726",
"x": "15257325102269257500952666234258390440784631258290849427995327271016746392874745418332411307878802722313290121875304",
"y": "4328484333323537370140289221894227421374768010975084515009812507735225058958151232285344150220237468834240951232101",
"q": "283126016430761700025971927712433248679955632555683635836204865901407138583221994673762880635411800749437"
},
{
"N": "283126016430761700025971927712433248679955632555683635836204865901407138583221994673762880635411800749437",
"a": "188648438827667648544791230655554483229772286787823608010620027783786092075776433108168130504427859225674",
"b": "0",
"x": "161476476883873616620113594212456528391028364347123695734295020695119503622309122869671641321484715498346",
"y": "230018534259426871210924063024611383757831419371734755189954960357427727758129395454833218167843361798357",
"q": "216414275948631078333214262438215559763110495299946420989159926274194942844091826430470974312921"
},
{
"N": "216414275948631078333214262438215559763110495299946420989159926274194942844091826430470974312921",
"a": "181795615335114554367679903895019857890050420232138476298232008293574529713297626139297012317411",
"b": "0",
"x": "100958337123595052587353435167679483491988579151931814015442995847386885511682236161601574363",
"y": "91261016760008353121194087374486064045947422079888926435254143300169629701927760983156489354281",
"q": "469371976499616281910882166859439653162869346435047688565661476766658395310316739325180821"
},
{
"N": "469371976499616281910882166859439653162869346435047688565661476766658395310316739325180821",
"a": "0",
"b": "468524382103260238720863995421764655834557021069617795839433055772998266050581735224091060",
"x": "314158928077972095587277544882494559708510269023446014627669228908667185383142346821777654",
"y": "205928468408120423291706280216441594711430782102165325587769857273144723350463827479425762",
"q": "839663643112014815582973464864829433207279691543707894493255301908269049703707976873259"
},
{
"N": "839663643112014815582973464864829433207279691543707894493255301908269049703707976873259",
"a": "283767050449277141286432195555801986036329318324040475054144421986839958549056320141098",
"b": "833719653813624950341472280072267914069163230911597141610464620587373645042434561879747",
"x": "565672633420602882871396079314163761221768439024640112519819845056216048421305799863111",
"y": "518149052736081373090806590774752542626608249473703299173385094154848269179840124436994",
"q": "13327994335111346279094816902616340209639359854439879624804976471354631464922310894297"
},
{
"N": "13327994335111346279094816902616340209639359854439879624804976471354631464922310894297",
"a": "4848868788659486433989269622417924714282602478803408297380929382531847666543290610273",
"b": "0",
"x": "2642429065352293613688324533450468626708919388055543778968292175478749995075311607918",
"y": "343255418519909763951481636941962139152821483354406664067647537278302290032975535882",
"q": "5170852614254435200655749162475676249164092891266472973453997799347258886133"
},
{
"N": "5170852614254435200655749162475676249164092891266472973453997799347258886133",
"a": "2815975946828040529612757140331310852269984602836713396860131768144088202156",
"b": "423110135530325308561197770594737738586342395230318881806385443531707374524",
"x": "3228186635456673201198044821329857796955827051266132426448641774453847880180",
"y": "3769305372098814863450656668832665757404871465417871732713112648066049542356",
"q": "13526449948662860803010319579835081609109012680914733844253450586831"
},
{
"N": "13526449948662860803010319579835081609109012680914733844253450586831",
"a": "0",
"b": "604654091096861952109102097751948034277413313501743153698917372649",
"x": "3251501850548565773881850455133752851885912091106089112707701074743",
"y": "10145718571491623695016514670009491729347567818143343606835127083173",
"q": "7991775903109664128403927319290955913406790954269747233"
},
{
"N": "7991775903109664128403927319290955913406790954269747233",
"a": "0",
"b": "6638849551246473506692187107155001112890542459471379263",
"x": "1693299626129669521796208364882313792332857432258142234",
"y": "4580375503902492487934502910536530979118535704735164530",
"q": "221216885276711358715349747482270422068689123"
},
{
"N": "221216885276711358715349747482270422068689123",
"a": "0",
"b": "52555395691493950043121144948837850965821943",
"x": "110721359226730474893072264918649963294185686",
"y": "55030406108764173490008011829811662922585219",
"q": "27667286166050998812267407349339106237"
},
{
"N": "27667286166050998812267407349339106237",
"a": "0",
"b": "7459136292985158084924443219358008019",
"x": "20950682257304507311790469888699309299",
"y": "18983570773134368920681380353910027672",
"q": "24256016964264672360637316263933"
},
{
"N": "24256016964264672360637316263933",
"a": "0",
"b": "21615744266677138644962122772507",
"x": "10406846457607592382808468882800",
"y": "4688828205288714961917438681470",
"q": "5175481464800342145911413"
},
{
"N": "5175481464800342145911413",
"a": "0",
"b": "1176665181364320671046194",
"x": "1206510966371082744104867",
"y": "4440454775309380745717669",
"q": "72415753190861122363"
},
{
"N": "72415753190861122363",
"a": "0",
"b": "25206081532041055081",
"x": "3128603083785012350",
"y": "60608090600990524092",
"q": "270208034302447009"
},
{
"N": "270208034302447009",
"a": "0",
"b": "47676104447843515",
"x": "64607273605638515",
"y": "168680582511591812",
"q": "66110534317"
},
{
"N": "66110534317",
"a": "0",
"b": "8034899512",
"x": "26944625039",
"y": "10228008847",
"q": "5085459793"
},
{
"N": "5085459793",
"a": "0",
"b": "4980663347",
"x": "3065284439",
"y": "2672088388",
"q": "79461901"
}
]