[
{
"N": "39402006196394479212279040100143613805079739270465446667946905279627659399113263569398956308152294913554433653942643",
"a": "25965008341926186146590131606492519041227344770294022324538326047092962351068651465596597645858151458120210567230466",
"b": "33024484071876556611682346205339686888184839723421499951461891639063493978390544394408710331321778525146295901378584",
"x": "22611095297924589562672310764799548078507454249523634706253450138021811565929677949404819620310569604396788480604432",
"y": "13338065523485140517911395433923317762486441135477545209435735235185268118078660839193599302120149503300184023263636",
"q": "2274811280895703435845450037534993003006739753505308392583256062817130559596950684505191689834369037149667664303"
},
{
"N": "2274811280895703435845450037534993003006739753505308392583256062817130559596950684505191689834369037149667664303",
"a": "0",
"b": "1661073209858761083564480033020226996189864163824740247556216820332127847687466801962662072865487836725423349684",
"x": "305757437094077119263226518667353847447900359993594033013394607846605919474642765082579162113560011249457320752",
"y": "1095140382354256543721829154990439762687010862432106637855729054922317956421094085560789702090491779647193013772",
"q": "590400020995510883946392431231506099923887815599612871182121561167220997242148822142336382492371205712374493"
},
{
"N": "590400020995510883946392431231506099923887815599612871182121561167220997242148822142336382492371205712374493",
"a": "588106035658003682394092131692387449914612185252193876722673463804105161372034799338395004639955523389612603",
"b": "483655946510167957015560918678440338292094558189743819313065037334808880530792484888666541746050376822728787",
"x": "193789950998059847206992297855643646030143482525751310311225998219890265341311472099510910728495146004961221",
"y": "170243128024907084248168150129756054355302842526721950520837032087808315052108293912052528595763164268775254",
"q": "62379560487780979702067076328162764572836620139406571101081447125686456248695006155868482425207275579"
},
{
"N": "62379560487780979702067076328162764572836620139406571101081447125686456248695006155868482425207275579",
"a": "0",
"b": "54237244717112465549440582419452196062224983356574159837321094659089695766117696006414297075051444043",
"x": "27578792673989283152744108377954842995565341864276201034962057962683580481442651841968539567647170400",
"y": "27154924509143630528298150559698839811083823234762620402998137819218998649609924154567983453810113621",
"q": "64982266823616697360969230160216329191404070741226501358374671069453067658201476478863181123"
},
{
"N": "64982266823616697360969230160216329191404070741226501358374671069453067658201476478863181123",
"a": "25474297065280937585004458159129320999126572471228607272703293388335239906902296734903246187",
"b": "49739907335689078543064205776043977720529137307557385042491536280373126709637803100984266252",
"x": "27589236870408757428866832309682052095483974420141649615635359658801505905232231338160776680",
"y": "14568703111570711376785009419388739520886806074956021756295254600667417976920911506546604865",
"q": "398664213641820229208400185032002019579166078162345548199675983153644015905637656159334617"
},
{
"N": "398664213641820229208400185032002019579166078162345548199675983153644015905637656159334617",
"a": "237061127372883016846686801964533219840544981457945031442050993385754821921408721398226704",
"b": "260207863778180957418994449572071843737998444424404207201150145520062602613505962637033583",
"x": "36695897618021616207756983733094592725235521953492322891707258491150669510351064580610594",
"y": "347040556424053178148001316555153600654394659533680421753998553374743576948794075815584694",
"q": "260829937381992959647484983124680325153450779652163666620917854430815076232295188983"
},
{
"N": "260829937381992959647484983124680325153450779652163666620917854430815076232295188983",
"a": "144664706233798444203192133568933286759322154464617209323718611964565356193654617241",
"b": "147991195328767297194350463595134164417096529976660249566419617549872479821223285226",
"x": "162415515171148385267315587539415324083275800229547800314902344292464464209847173100",
"y": "82843932776250146438068218219782669201519883038529237651020357551018864325089737444",
"q": "33963721185779308846025603505691104662784688863481792359156993946454230981"
},
{
"N": "33963721185779308846025603505691104662784688863481792359156993946454230981",
"a": "31613072972157981108923111042756656285291977922628091706990427179620830496",
"b": "0",
"x": "31725284903423611489988227230211181201601225040067393328733698721023110014",
"y": "7570097762303511143898705748508723099077857109839421236449118239120561591",
"q": "943436699604980801278488986269197351424452577715709951512179096297844297"
},
{
"N": "943436699604980801278488986269197351424452577715709951512179096297844297",
"a": "904164668376288540862836592868163106086431189757534645946468465298773014",
"b": "0",
"x": "833034958722791003778446285807456394487264211803737353349670997515012786",
"y": "800949738090326442999421739547044795198539935330742441432424117478451263",
"q": "3773746798419923205113955945076789398028212933718683736236352065370153"
},
{
"N": "3773746798419923205113955945076789398028212933718683736236352065370153",
"a": "0",
"b": "2269963274367749075005158337356707453644747100442380507192203499047613",
"x": "1319896013327396478111626738337700021077627002139072395400736495827394",
"y": "875118480955788426556540875265242684474447730624863303415876965305954",
"q": "774342773716603717191087760829015685954034629841629139201447"
},
{
"N": "774342773716603717191087760829015685954034629841629139201447",
"a": "0",
"b": "367521291397483317032322823554315859625743680060777318392154",
"x": "249547541369352756426063930961371242540632368567764010369307",
"y": "404032959344372353822924798586018682257044379225746490188537",
"q": "438969826369956755777260635390980207995547905783943515891"
},
{
"N": "438969826369956755777260635390980207995547905783943515891",
"a": "0",
"b": "238561154658669910893163036972055102216373964777225194543",
"x": "136568638523093680622980391314157597964759621667858712382",
"y": "365873234998449348586865365501127916829594650095245369210",
"q": "24055151258938445857928437053806916171422684159737"
},
{
"N": "24055151258938445857928437053806916171422684159737",
"a": "0",
"b": "6110471421516522167411496311768654692362282473693",
"x": "20226703399656842382463314635833936752813440141383",
"y": "11525443928636007989371972792079934922776115712903",
"q": "650139223214552590754822788772729189303368653001"
},
{
"N": "650139223214552590754822788772729189303368653001",
"a": "0",
"b": "163046351915161319459913339095486882872560394283",
"x": "202146962448153588888619197380147411723142445215",
"y": "472645976463784757354557863339189844212093321633",
"q": "668180085523692282379055847644658643967591737"
},
{
"N": "668180085523692282379055847644658643967591737",
"a": "0",
"b": "603299696897854181748445074359431827647884950",
"x": "582748756030683152495528155115121419654934954",
"y": "277928697719402955216851147540157788826340619",
"q": "5413316913758710428843243008137"
},
{
"N": "5413316913758710428843243008137",
"a": "0",
"b": "3599192977455259182378986501376",
"x": "3863928756004256621477855661962",
"y": "3714081081020346654780752450409",
"q": "165413203698154417"
},
{
"N": "165413203698154417",
"a": "0",
"b": "148337361579188273",
"x": "135452697780517382",
"y": "45846532987943217",
"q": "23630457743573581"
},
{
"N": "23630457743573581",
"a": "0",
"b": "13102295834351850",
"x": "2845998126945219",
"y": "14343203761273606",
"q": "88960384609"
},
{
"N": "88960384609",
"a": "0",
"b": "1811204487",
"x": "81722070671",
"y": "68886542099",
"q": "318856183"
}
]